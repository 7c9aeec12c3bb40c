import Verif.GlyphBuffer.Spec
import Verif.Unicode.Loops
/-! Decoding text into the buffer. -/
namespace Blend2D.GlyphBuffer
open Blend2D.Unicode (Enc Reader win next okStep Accepts Readable charSize next_spec next_complete okStep_ptr
  okStep_res okStep_uc cp_pos cp_mod prefix_le win_after)
open Blend2D.Unicode.Spec (codePoint Carried Surrogate Scalar)

theorem unit_charSize (e : Enc) : Spec.unitBytes e = charSize e := by cases e <;> rfl
theorem charSize_pos (e : Enc) : 0 < charSize e := by cases e <;> simp [charSize]

theorem carried_accepts {e : Enc} (he : e ≠ .latin1) (c : Nat) : Carried e c ↔ Accepts e c := by
  cases e
  · exact absurd rfl he
  all_goals simp [Carried, Accepts, Scalar]

/-- Without the strict flag UTF-16 is never rejected. -/
theorem next16_total (src : List UInt8) (stop : Nat) (r r' : Reader) (x : Unicode.Result) (u : UInt32) (n : Nat)
    (h : Unicode.next16 {} src stop r = some (x, u, n, r')) : x = .success := by
  unfold Unicode.next16 at h
  simp only [Option.bind_eq_bind, Option.bind_eq_some_iff] at h
  obtain ⟨a, -, h⟩ := h
  by_cases h1 : Unicode.isSurrogate a = true
  · by_cases h2 : Unicode.isHiSurrogate a = true
    · by_cases h3 : r.ptr + 2 = stop
      · simp [h1, h2, h3, Unicode.next16Bmp] at h; exact h.1.symm
      · simp only [h1, h2, h3, if_true, ne_eq, not_false_eq_true, Option.bind_eq_some_iff] at h
        obtain ⟨b, -, h⟩ := h
        by_cases h4 : Unicode.isLoSurrogate b = true
        · simp [h4] at h; exact h.1.symm
        · simp [h4, Unicode.next16Bmp] at h; exact h.1.symm
    · simp [h1, h2, Unicode.next16Bmp] at h; exact h.1.symm
  · simp [h1, Unicode.next16Bmp] at h; exact h.1.symm

theorem next32_takes (src : List UInt8) (stop : Nat) (r : Reader) (hstop : stop ≤ src.length) (c : Nat)
    (hc : c ≤ 0x10FFFF) (hp : codePoint false .utf32 c <+: win src stop r.ptr) :
    Unicode.next32 {} src r = some (okStep {} .utf32 r c) := by
  have hg := Unicode.get_of_prefix hstop hp
  have e : codePoint false .utf32 c = (Unicode.Spec.unit32 false c).map UInt8.ofNat := rfl
  obtain ⟨b0, b1, b2, b3, hb⟩ : ∃ b0 b1 b2 b3, (Unicode.Spec.unit32 false c).map UInt8.ofNat = [b0, b1, b2, b3] := by
    unfold Unicode.Spec.unit32; simp
  rw [hb] at e
  have g0 := hg 0 (by rw [e]; simp)
  have g1 := hg 1 (by rw [e]; simp)
  have g2 := hg 2 (by rw [e]; simp)
  have g3 := hg 3 (by rw [e]; simp)
  simp only [e, List.getElem_cons_zero, List.getElem_cons_succ, Nat.add_zero] at g0 g1 g2 g3
  obtain ⟨u, eu, hu⟩ := Unicode.rd32_val {} src r.ptr g0 g1 g2 g3
  have v1 := Unicode.val32_unit {} c (by omega) hb
  exact Unicode.next32_step {} src r u c (by omega) hc (by simp) eu

/-- One call of `next`: it takes a code point, a lone surrogate, or reports a unit that starts none. -/
theorem next_item (e : Enc) (he : e ≠ .latin1) (src : List UInt8) (stop : Nat) (r : Reader)
    (hstop : stop ≤ src.length) (hlt : r.ptr < stop) (hal : (stop - r.ptr) % charSize e = 0) :
    ∃ s, next e {} src stop r = some s ∧
    ((∃ c, Carried e c ∧ codePoint false e c <+: win src stop r.ptr ∧
        item e s = (UInt32.ofNat c, false, (okStep {} e r c).2.2.2)) ∨
     (∃ c, Surrogate c ∧ e ≠ .utf8 ∧ codePoint false e c <+: win src stop r.ptr ∧
        (∀ c', Carried e c' → ¬ codePoint false e c' <+: win src stop r.ptr) ∧
        item e s = (UInt32.ofNat c, false, (okStep {} e r c).2.2.2)) ∨
     ((∀ c', c' ≤ 0x10FFFF → ¬ codePoint false e c' <+: win src stop r.ptr) ∧
        item e s = (0xFFFD, true, { r with ptr := r.ptr + charSize e }))) := by
  rcases next_spec e he {} src stop r hstop hlt hal with ⟨c, hc, hp, hn⟩ | ⟨err, u, n, herr, hn, hno⟩
  · refine ⟨_, hn, ?_⟩
    have hi : item e (okStep {} e r c) = (UInt32.ofNat c, false, (okStep {} e r c).2.2.2) := by
      unfold item; rw [okStep_res, okStep_uc]; rfl
    by_cases ha : Accepts e c
    · exact Or.inl ⟨c, (carried_accepts he c).2 ha, hp, hi⟩
    · refine Or.inr (Or.inl ⟨c, ?_, ?_, hp, ?_, hi⟩)
      · refine Classical.byContradiction fun hs => ?_
        exact ha ⟨hc.1, fun _ => hs⟩
      · intro h8
        exact ha ⟨hc.1, fun h => absurd h8 h⟩
      · intro c' hc' hp'
        have hc'' := (carried_accepts he c').1 hc'
        have := next_complete e he {} src stop r hstop c' hc'' hp'
        rw [hn] at this
        have h2 : (okStep {} e r c).2.1 = (okStep {} e r c').2.1 := by rw [Option.some.inj this]
        rw [okStep_uc, okStep_uc] at h2
        have h3 := congrArg UInt32.toNat h2
        have l1 := hc.1
        have l2 := hc''.1
        simp only [UInt32.toNat_ofNat'] at h3
        have : c = c' := by omega
        exact ha (this ▸ hc'')
  · refine ⟨_, hn, Or.inr (Or.inr ⟨?_, ?_⟩)⟩
    · intro c' hc' hp'
      by_cases ha : Accepts e c'
      · exact hno c' ha hp'
      · cases e
        · exact he rfl
        · exact ha ⟨hc', by simp⟩
        · have := next16_total _ _ _ _ _ _ _ hn
          rcases herr with rfl | rfl <;> simp at this
        · have := next32_takes src stop r hstop c' hc' hp'
          have hn' : Unicode.next32 {} src r = some (err, u, n, r) := hn
          rw [hn'] at this
          have h2 := congrArg (fun s => s.1) (Option.some.inj this)
          rw [okStep_res] at h2
          simp only at h2
          rcases herr with rfl | rfl <;> simp at h2
    · unfold item
      rcases herr with rfl | rfl <;> simp [replacement]

theorem put_spec (d : Impl) (i : Nat) (v c : UInt32) (h : i < d.content.length) (h2 : i < d.info.length) :
    put d i v c = some { d with content := d.content.set i v, info := d.info.set i c } := by
  simp [put, store, h, h2]

theorem set_cons_append {α : Type} (l m : List α) (k : Nat) (v : α) (t : List α)
    (h : m = (l.set k v).take (k + 1) ++ t ) (hk : k < l.length) : m = l.take k ++ v :: t := by
  rw [h, List.take_add_one, List.take_set_of_le (Nat.le_refl k)]
  simp [hk]

/-- The loop writes the decoding of the rest of the text behind the items that are already there. -/
theorem textLoop_spec (e : Enc) (he : e ≠ .latin1) (src : List UInt8) (stop : Nat) (hstop : stop ≤ src.length) :
    ∀ (fuel : Nat) (d : Impl) (n : Nat) (r : Reader), r.ptr ≤ stop → stop - r.ptr < fuel →
      (stop - r.ptr) % charSize e = 0 → r.ptr % charSize e = 0 →
      n + (stop - r.ptr) / charSize e ≤ d.content.length → d.info.length = d.content.length →
      ∃ d' out, textLoop e src stop fuel d n r = some (d', n + out.length) ∧
        Spec.Decodes e (r.ptr / charSize e) (win src stop r.ptr) out ∧
        d'.content = d.content.take n ++ out.map (fun p => UInt32.ofNat p.1) ++ d.content.drop (n + out.length) ∧
        d'.info = d.info.take n ++ out.map (fun p => UInt32.ofNat p.2) ++ d.info.drop (n + out.length) ∧
        n + out.length ≤ d.content.length ∧ d'.second = d.second ∧ d'.placed = d.placed ∧ d'.offsets = d.offsets := by
  intro fuel
  induction fuel with
  | zero => intro d n r _ h; omega
  | succ fuel ih =>
    intro d n r hle hfuel hal hpt hcap hinfo
    have hpos := charSize_pos e
    unfold textLoop
    by_cases hend : r.ptr = stop
    · refine ⟨d, [], by simp [hend], ?_, ?_, ?_, ?_, rfl, rfl, rfl⟩
      · rw [hend]
        have : win src stop stop = [] := by simp [win]
        rw [this]; exact .done _
      · simp
      · simp
      · simp only [List.length_nil]; exact Nat.le_trans (Nat.le_add_right _ _) hcap
    · rw [if_neg hend]
      have hlt : r.ptr < stop := by omega
      obtain ⟨s, hs, hcase⟩ := next_item e he src stop r hstop hlt hal
      rw [hs]
      simp only
      have hunits : 1 ≤ (stop - r.ptr) / charSize e := by
        obtain ⟨q, hq⟩ := Nat.dvd_of_mod_eq_zero hal
        have hq0 : q ≠ 0 := by rintro rfl; omega
        rw [hq, Nat.mul_div_cancel_left _ hpos]; omega
      have hn1 : n < d.content.length := by omega
      rw [put_spec d n _ _ hn1 (by omega)]
      simp only
      -- a step that consumes `len` bytes
      have go : ∀ (v : Nat) (b : Bool) (r' : Reader) (len : Nat),
          item e s = (UInt32.ofNat v, b, r') → r'.ptr = r.ptr + len → 0 < len → len % charSize e = 0 →
          r.ptr + len ≤ stop →
          (∀ out, Spec.Decodes e ((r.ptr + len) / charSize e) (win src stop (r.ptr + len)) out →
            Spec.Decodes e (r.ptr / charSize e) (win src stop r.ptr) ((v, r.ptr / charSize e) :: out)) →
          ∃ d' out, textLoop e src stop fuel
              { { d with content := d.content.set n (item e s).1, info := d.info.set n (UInt32.ofNat (r.ptr / charSize e)) } with
                flags := { d.flags with invalid := d.flags.invalid || (item e s).2.1 } } (n + 1) (item e s).2.2
              = some (d', n + out.length) ∧
            Spec.Decodes e (r.ptr / charSize e) (win src stop r.ptr) out ∧
            d'.content = d.content.take n ++ out.map (fun p => UInt32.ofNat p.1) ++ d.content.drop (n + out.length) ∧
            d'.info = d.info.take n ++ out.map (fun p => UInt32.ofNat p.2) ++ d.info.drop (n + out.length) ∧
            n + out.length ≤ d.content.length ∧ d'.second = d.second ∧ d'.placed = d.placed ∧ d'.offsets = d.offsets := by
        intro v b r' len hi hr' hlen hmod hbound hdec
        rw [hi]
        simp only
        obtain ⟨q, hq⟩ := Nat.dvd_of_mod_eq_zero hal
        obtain ⟨q2, hq2⟩ := Nat.dvd_of_mod_eq_zero hmod
        obtain ⟨q3, hq3⟩ := Nat.dvd_of_mod_eq_zero hpt
        have hq2pos : 0 < q2 := Nat.pos_of_ne_zero (by rintro rfl; omega)
        have hsub : stop - r'.ptr = charSize e * (q - q2) := by
          rw [hr', Nat.mul_sub, ← hq, ← hq2]; omega
        obtain ⟨d', out, h1, h2, h3, h4, h5, h6⟩ := ih
          { { d with content := d.content.set n (UInt32.ofNat v), info := d.info.set n (UInt32.ofNat (r.ptr / charSize e)) } with
                flags := { d.flags with invalid := d.flags.invalid || b } } (n + 1) r'
          (by omega) (by omega) (by rw [hsub]; simp) (by rw [hr', hq3, hq2, ← Nat.mul_add]; simp)
          (by
            simp only [List.length_set]
            rw [hsub, Nat.mul_div_cancel_left _ hpos]
            rw [hq, Nat.mul_div_cancel_left _ hpos] at hcap hunits
            omega)
          (by simpa using hinfo)
        refine ⟨d', (v, r.ptr / charSize e) :: out, ?_, ?_, ?_, ?_, ?_, h6⟩
        · rw [h1]; simp; omega
        · exact hdec out (by rw [← hr']; exact h2)
        · rw [h3]
          simp only [List.map_cons, List.length_cons]
          rw [List.take_add_one, List.take_set_of_le (Nat.le_refl n), List.drop_set_of_lt (by omega)]
          simp [hn1, Nat.add_assoc, Nat.add_comm 1]
        · rw [h4]
          simp only [List.map_cons, List.length_cons]
          rw [List.take_add_one, List.take_set_of_le (Nat.le_refl n), List.drop_set_of_lt (by omega)]
          simp [hinfo, hn1, Nat.add_assoc, Nat.add_comm 1]
        · simp only [List.length_set] at h5
          simp only [List.length_cons]; omega
      -- what remains behind a prefix
      have after : ∀ c, codePoint false e c <+: win src stop r.ptr →
          ∃ rest, win src stop r.ptr = codePoint false e c ++ rest ∧
            win src stop (r.ptr + (codePoint false e c).length) = rest := by
        rintro c ⟨rest, h⟩
        exact ⟨rest, h.symm, win_after h.symm⟩
      have kdiv : ∀ c, (r.ptr + (codePoint false e c).length) / charSize e =
          r.ptr / charSize e + (codePoint false e c).length / Spec.unitBytes e := by
        intro c
        rw [unit_charSize]
        obtain ⟨q3, hq3⟩ := Nat.dvd_of_mod_eq_zero hpt
        obtain ⟨q2, hq2⟩ := Nat.dvd_of_mod_eq_zero (cp_mod false e c)
        rw [hq3, hq2, ← Nat.mul_add, Nat.mul_div_cancel_left _ hpos, Nat.mul_div_cancel_left _ hpos,
          Nat.mul_div_cancel_left _ hpos]
      rcases hcase with ⟨c, hc, hp, hi⟩ | ⟨c, hc, h8, hp, hno, hi⟩ | ⟨hno, hi⟩
      · refine go c false _ _ hi (okStep_ptr {} e r c) (cp_pos false e c) (cp_mod false e c)
          (prefix_le hstop hp (cp_pos false e c)) ?_
        intro out hout
        obtain ⟨rest, hw, hr⟩ := after c hp
        rw [hw]
        refine .char _ _ _ _ hc ?_
        rw [← kdiv c, ← hr]; exact hout
      · refine go c false _ _ hi (okStep_ptr {} e r c) (cp_pos false e c) (cp_mod false e c)
          (prefix_le hstop hp (cp_pos false e c)) ?_
        intro out hout
        obtain ⟨rest, hw, hr⟩ := after c hp
        rw [hw] at hno ⊢
        refine .lone _ _ _ _ hc h8 he hno ?_
        have hu : (codePoint false e c).length / Spec.unitBytes e = 1 := by
          unfold Surrogate at hc
          cases e
          · exact absurd rfl he
          · exact absurd rfl h8
          · rw [Unicode.len_cp16]; unfold Unicode.Spec.utf16; rw [if_pos (by omega)]; simp [Spec.unitBytes]
          · rw [Unicode.len_cp]; simp [Spec.unitBytes]
        have := kdiv c
        rw [hu] at this
        rw [← this, ← hr]; exact hout
      · have hfit : r.ptr + charSize e ≤ stop := by
          obtain ⟨q, hq⟩ := Nat.dvd_of_mod_eq_zero hal
          have hq0 : 1 ≤ q := Nat.pos_of_ne_zero (by rintro rfl; omega)
          have : charSize e * 1 ≤ charSize e * q := Nat.mul_le_mul_left _ hq0
          omega
        refine go 0xFFFD true _ (charSize e) hi rfl hpos (Nat.mod_self _) hfit ?_
        intro out hout
        have hw : win src stop r.ptr = (win src stop r.ptr).take (charSize e) ++ win src stop (r.ptr + charSize e) := by
          rw [← Unicode.win_drop, List.take_append_drop]
        rw [hw] at hno ⊢
        refine .bad _ _ _ _ ?_ hno ?_
        · rw [unit_charSize, List.length_take, Unicode.win_length _ _ _ hstop]; omega
        · have : (r.ptr + charSize e) / charSize e = r.ptr / charSize e + 1 := by
            rw [Nat.add_div_right _ hpos]
          rw [← this]; exact hout

theorem latin1Loop_spec (src : List UInt8) : ∀ (n : Nat) (d : Impl) (i : Nat), i + n ≤ src.length →
    i + n ≤ d.content.length → d.info.length = d.content.length →
    ∃ d' out, latin1Loop src d i n = some d' ∧ out.length = n ∧
      Spec.Decodes .latin1 i ((src.drop i).take n) out ∧
      d'.content = d.content.take i ++ out.map (fun p => UInt32.ofNat p.1) ++ d.content.drop (i + n) ∧
      d'.info = d.info.take i ++ out.map (fun p => UInt32.ofNat p.2) ++ d.info.drop (i + n) ∧
      d'.second = d.second ∧ d'.placed = d.placed ∧ d'.offsets = d.offsets := by
  intro n
  induction n with
  | zero =>
    intro d i _ _ _
    exact ⟨d, [], rfl, rfl, by simpa using .done _, by simp, by simp, rfl, rfl, rfl⟩
  | succ n ih =>
    intro d i h1 h2 h3
    have hb : src[i]? = some src[i] := List.getElem?_eq_getElem (by omega)
    unfold latin1Loop
    rw [hb]
    simp only [Option.bind_eq_bind, Option.bind_some]
    rw [put_spec d i _ _ (by omega) (by omega)]
    simp only [Option.bind_some]
    obtain ⟨d', out, e1, e2, e3, e4, e5, e6⟩ := ih
      { d with content := d.content.set i src[i].toUInt32, info := d.info.set i (UInt32.ofNat i) } (i + 1)
      (by omega) (by simp; omega) (by simpa using h3)
    refine ⟨d', (src[i].toNat, i) :: out, e1, by simp [e2], ?_, ?_, ?_, e6⟩
    · have : (src.drop i).take (n + 1) = codePoint false .latin1 src[i].toNat ++ (src.drop (i + 1)).take n := by
        rw [List.drop_eq_getElem_cons (by omega), List.take_succ_cons]
        simp [codePoint]
      rw [this]
      exact .char _ _ _ _ (UInt8.toNat_lt _) (by simpa [Unicode.len_cp, Spec.unitBytes] using e3)
    · rw [e4]
      rw [List.take_add_one, List.take_set_of_le (Nat.le_refl i), List.drop_set_of_lt (by omega)]
      have : UInt32.ofNat src[i].toNat = src[i].toUInt32 := by simp
      have hi : i < d.content.length := by omega
      simp [hi, this, Nat.add_assoc, Nat.add_comm 1]
    · rw [e5]
      rw [List.take_add_one, List.take_set_of_le (Nat.le_refl i), List.drop_set_of_lt (by omega)]
      have hi : i < d.content.length := by omega
      simp [h3, hi, Nat.add_assoc, Nat.add_comm 1]

end Blend2D.GlyphBuffer
