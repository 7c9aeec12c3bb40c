import Verif.Unicode.Loops
/-! `bl_validate_unicode` and `convert_unicode` as a whole. -/
namespace Blend2D.Unicode
open Bits Spec

theorem carried_iff (e : Enc) (he : e ≠ .latin1) (c : Nat) : Carried e c ↔ Accepts e c := by
  cases e
  · exact absurd rfl he
  · simp [Carried, Accepts]
  · simp [Carried, Accepts, Scalar]
  · simp [Carried, Accepts, Scalar]

theorem alignDown_le (x a : Nat) : alignDown x a ≤ x := Nat.div_mul_le_self x a
theorem alignDown_mod (x a : Nat) : alignDown x a % a = 0 := Nat.mul_mod_left _ _
theorem alignDown_of_mod (x a : Nat) (h : x % a = 0) : alignDown x a = x := by
  unfold alignDown; have := Nat.div_add_mod x a; rw [h, Nat.mul_comm] at this; omega
theorem charSize_pos (e : Enc) : 0 < charSize e := by cases e <;> simp [charSize]

theorem win_zero (src : List UInt8) (stop : Nat) : win src stop 0 = src.take stop := by simp [win]

/-! ### Unique decodability -/

theorem cp_unique (e : Enc) (he : e ≠ .latin1) (l : List UInt8) (a b : Nat) (ha : Accepts e a) (hb : Accepts e b)
    (pa : codePoint false e a <+: l) (pb : codePoint false e b <+: l) : a = b := by
  have hw : win l l.length 0 = l := by simp [win]
  have h1 := next_complete e he { strict := true } l l.length { ptr := 0 } (Nat.le_refl _) a ha (by rw [hw]; exact pa)
  have h2 := next_complete e he { strict := true } l l.length { ptr := 0 } (Nat.le_refl _) b hb (by rw [hw]; exact pb)
  rw [h1] at h2
  have h3 := congrArg (fun s : Option Step => s.map (fun t => t.2.1.toNat)) h2
  simp only [Option.map_some, okStep_uc, Option.some.injEq, UInt32.toNat_ofNat'] at h3
  have := ha.1
  have := hb.1
  omega

theorem text_prefix (e : Enc) (he : e ≠ .latin1) : ∀ (cs' cs : List Nat) (rest : List UInt8),
    (∀ c ∈ cs, Accepts e c) → (∀ c ∈ cs', Accepts e c) → text e cs = text e cs' ++ rest →
    ∃ t, cs = cs' ++ t ∧ rest = text e t
  | [], cs, rest, _, _, h => ⟨cs, rfl, by simpa [text_nil] using h.symm⟩
  | c' :: cs', [], rest, _, _, h => by
    have := congrArg List.length h
    rw [text_cons, text_nil] at this
    simp only [List.length_nil, List.length_append] at this
    have := cp_pos false e c'
    omega
  | c' :: cs', c :: cs, rest, h1, h2, h => by
    have e1 : c' = c := by
      apply cp_unique e he (text e (c :: cs)) c' c (h2 _ (by simp)) (h1 _ (by simp))
      · rw [h, text_cons, List.append_assoc]; exact List.prefix_append _ _
      · rw [text_cons]; exact List.prefix_append _ _
    subst e1
    rw [text_cons, text_cons, List.append_assoc] at h
    obtain ⟨t, h3, h4⟩ := text_prefix e he cs' cs rest (fun x hx => h1 x (by simp [hx])) (fun x hx => h2 x (by simp [hx]))
      (List.append_cancel_left h)
    exact ⟨t, by rw [h3]; rfl, h4⟩

/-! ### Index bookkeeping -/

/-- Number of UTF-16 units / UTF-8 bytes. -/
abbrev n8 (cs : List Nat) : Nat := (cs.map (fun c => (utf8 c).length)).sum
abbrev n16 (cs : List Nat) : Nat := (cs.map (fun c => (utf16 c).length)).sum

theorem len8_pos (c : Nat) : 1 ≤ (utf8 c).length := by unfold utf8; (repeat' split) <;> simp
theorem len16_pos (c : Nat) : 1 ≤ (utf16 c).length := by unfold utf16; split <;> simp
theorem len16_le8 (c : Nat) : (utf16 c).length ≤ (utf8 c).length := by
  unfold utf16 utf8; (repeat' split) <;> simp <;> omega

theorem n_cons8 (c : Nat) (cs : List Nat) : n8 (c :: cs) = (utf8 c).length + n8 cs := by simp [n8]
theorem n_cons16 (c : Nat) (cs : List Nat) : n16 (c :: cs) = (utf16 c).length + n16 cs := by simp [n16]
theorem n8_ge (cs : List Nat) : cs.length ≤ n8 cs := by
  induction cs with
  | nil => simp [n8]
  | cons c t ih => rw [n_cons8, List.length_cons]; have := len8_pos c; omega
theorem n16_ge (cs : List Nat) : cs.length ≤ n16 cs := by
  induction cs with
  | nil => simp [n16, n8]
  | cons c t ih => rw [n_cons16, List.length_cons]; have := len16_pos c; omega
theorem n16_le8 (cs : List Nat) : n16 cs ≤ n8 cs := by
  induction cs with
  | nil => simp [n16, n8]
  | cons c t ih => rw [n_cons16, n_cons8]; have := len16_le8 c; omega

/-- Selects by encoding what a reader subtracts from the UTF-8 length. -/
def sel (e : Enc) (a b : Nat) : Nat := match e with | .utf8 => a | _ => b

theorem okStep_aux (f : Flags) (hf : f.index = true) (e : Enc) (he : e ≠ .latin1) (r : Reader) (c : Nat) :
    (okStep f e r c).2.2.2.aux = r.aux + ((utf8 c).length - sel e 1 (utf16 c).length) ∧
    (okStep f e r c).2.2.2.sur = r.sur + ((utf16 c).length - 1) := by
  unfold okStep Reader.bump
  rw [if_pos hf]
  cases e
  · exact absurd rfl he
  all_goals exact ⟨rfl, rfl⟩

theorem advance_aux (f : Flags) (hf : f.index = true) (e : Enc) (he : e ≠ .latin1) (cs : List Nat) : ∀ r,
    (advance f e r cs).aux = r.aux + (n8 cs - sel e cs.length (n16 cs)) ∧
    (advance f e r cs).sur = r.sur + (n16 cs - cs.length) := by
  induction cs with
  | nil => intro r; cases e <;> simp [advance, n8, n16, sel]
  | cons c t ih =>
    intro r
    simp only [advance]
    obtain ⟨a1, a2⟩ := okStep_aux f hf e he r c
    obtain ⟨b1, b2⟩ := ih (okStep f e r c).2.2.2
    rw [b1, b2, a1, a2, n_cons8, n_cons16, List.length_cons]
    have := len8_pos c
    have := len16_pos c
    have := len16_le8 c
    have := n8_ge t
    have := n16_ge t
    have := n16_le8 t
    cases e
    · exact absurd rfl he
    all_goals (simp only [sel]; omega)

theorem indexes (f : Flags) (hf : f.index = true) (hsw : f.swap = false) (e : Enc) (he : e ≠ .latin1) (cs : List Nat) :
    (⟨utf8Index e (advance f e { ptr := 0 } cs), utf16Index e (advance f e { ptr := 0 } cs),
      utf32Index e (advance f e { ptr := 0 } cs)⟩ : ValidationState) = ⟨n8 cs, n16 cs, cs.length⟩ := by
  obtain ⟨h1, h2⟩ := advance_aux f hf e he cs { ptr := 0 }
  have h3 := advance_ptr f hsw e cs { ptr := 0 }
  have := n8_ge cs
  have := n16_ge cs
  have := n16_le8 cs
  have : (List.map (fun c => (utf8 c).length) cs).sum = n8 cs := rfl
  have : (List.map (fun c => (utf16 c).length) cs).sum = n16 cs := rfl
  cases e
  · exact absurd rfl he
  · rw [text_length8] at h3
    simp only [sel, utf8Index, utf16Index, utf32Index, h1, h2, h3, ValidationState.mk.injEq]; omega
  · rw [text_length16] at h3
    simp only [sel, utf8Index, utf16Index, utf32Index, h1, h2, h3, ValidationState.mk.injEq]; omega
  · rw [text_length32] at h3
    simp only [sel, utf8Index, utf16Index, utf32Index, h1, h2, h3, ValidationState.mk.injEq]; omega

/-- `validate_unicode_string` on a whole buffer. -/
theorem validateString_spec (e : Enc) (he : e ≠ .latin1) (src : List UInt8) :
    ∃ res cs rest, validateString e { strict := true } src = some (res, ⟨n8 cs, n16 cs, cs.length⟩) ∧
      (∀ c ∈ cs, Accepts e c) ∧ src.take (alignDown src.length (charSize e)) = text e cs ++ rest ∧
      ((res = .success ∧ rest = []) ∨
        ((res = .invalidString ∨ res = .dataTruncated) ∧ rest ≠ [] ∧
          (∀ c, Accepts e c → ¬ codePoint false e c <+: rest) ∧
          ∃ u n r, next e { strict := true, index := true } src (alignDown src.length (charSize e)) r = some (res, u, n, r) ∧
            r.ptr = (text e cs).length)) := by
  obtain ⟨res, cs, rest, h1, h2, h3, h4⟩ := validateLoop_spec e he { strict := true, index := true } rfl rfl src
    (alignDown src.length (charSize e)) (alignDown_le _ _) (src.length + 1) { ptr := 0 } (Nat.zero_le _)
    (by have := alignDown_le src.length (charSize e); omega) (by simpa using alignDown_mod src.length (charSize e))
  rw [win_zero] at h3
  refine ⟨res, cs, rest, ?_, h2, h3, ?_⟩
  · unfold validateString
    simp only [h1, Option.bind_eq_bind, Option.bind_some]
    rw [← indexes { strict := true, index := true } rfl rfl e he cs]; rfl
  · rcases h4 with h | ⟨a, b, c, u, n, d⟩
    · exact Or.inl h
    · refine Or.inr ⟨a, b, c, u, n, _, d, ?_⟩
      rw [advance_ptr _ rfl]; simp

/-! ### Latin-1 -/

theorem latin1_text (src : List UInt8) : text .latin1 (src.map UInt8.toNat) = src := by
  induction src with
  | nil => rfl
  | cons b t ih => rw [List.map_cons, text_cons, ih]; simp [codePoint]

theorem extra_spec (src : List UInt8) : ∀ k, src.foldl (fun (acc : Nat) (b : UInt8) => acc + (b >>> 7).toNat) k + src.length =
    k + n8 (src.map UInt8.toNat) := by
  induction src with
  | nil => intro k; simp [n8]
  | cons b t ih =>
    intro k
    rw [List.foldl_cons, List.length_cons, List.map_cons, n_cons8]
    have := ih (k + (b >>> 7).toNat)
    have e : (b >>> 7).toNat + 1 = (utf8 b.toNat).length := by
      have hb := b.toNat_lt
      have : (b >>> 7).toNat = b.toNat / 128 := by
        rw [UInt8.toNat_shiftRight]; simp [Nat.shiftRight_eq_div_pow]
      rw [this]; unfold utf8
      (repeat' split) <;> simp <;> omega
    omega

theorem n16_bytes (src : List UInt8) : n16 (src.map UInt8.toNat) = src.length := by
  induction src with
  | nil => simp [n16]
  | cons b t ih =>
    rw [List.map_cons, n_cons16, ih, List.length_cons]
    have hb := b.toNat_lt
    rw [utf16_1 _ (by omega)]; simp; omega

theorem len8_latin1 (b : UInt8) : (utf8 b.toNat).length ≤ 2 := by
  have hb := b.toNat_lt
  unfold utf8; (repeat' split) <;> simp <;> omega

theorem latin1_two (b : UInt8) (h : ¬ b.toUInt32 ≤ 0x7F) :
    [byte ((0xC0 : UInt32) ||| (b.toUInt32 >>> 6)), byte ((0x80 : UInt32) ||| (b.toUInt32 &&& 63))] =
      codePoint false .utf8 b.toNat := by
  have hb := b.toNat_lt
  rw [le_lit] at h
  simp only [UInt32.reduceToNat, toUInt32_toNat] at h
  have s6 := shr b.toUInt32 6 (by decide)
  have m0 := and63 b.toUInt32
  simp only [UInt32.reduceToNat, Nat.reducePow, toUInt32_toNat] at s6 m0
  rw [utf8_bytes, utf8_2 _ h (by omega),
    byte_or 0xC0 _ 6 (0xC0 + b.toNat / 64) (by decide) (by rw [s6]; omega) (by rw [s6]; simp only [UInt32.reduceToNat]; omega),
    byte_or 0x80 _ 6 (0x80 + b.toNat % 64) (by decide) (by rw [m0]; omega) (by rw [m0]; simp only [UInt32.reduceToNat]; omega)]
  rfl

theorem latin1_one (b : UInt8) (h : b.toUInt32 ≤ 0x7F) : [byte b.toUInt32] = codePoint false .utf8 b.toNat := by
  rw [le_lit] at h
  simp only [UInt32.reduceToNat, toUInt32_toNat] at h
  rw [utf8_bytes, utf8_1 _ h, byte_eq b.toUInt32 b.toNat (by rw [toUInt32_toNat]; have := b.toNat_lt; omega)]
  rfl

theorem latin1ToUtf8Unsafe_spec (src : List UInt8) : ∀ (mem : List UInt8) (p : Nat), p + 2 * src.length ≤ mem.length →
    latin1ToUtf8Unsafe src mem p = some (over mem p (text .utf8 (src.map UInt8.toNat)),
      p + (text .utf8 (src.map UInt8.toNat)).length) := by
  induction src with
  | nil => intro mem p h; simp [latin1ToUtf8Unsafe, text_nil, over]
  | cons b t ih =>
    intro mem p h
    rw [List.length_cons] at h
    have l2 := len8_latin1 b
    have lc := len_cp false .utf8 b.toNat
    simp only at lc
    have ht : (text .utf8 (t.map UInt8.toNat)).length ≤ 2 * t.length := by
      clear ih h
      induction t with
      | nil => simp [text_nil]
      | cons c t ih =>
        rw [List.map_cons, text_cons, List.length_append, List.length_cons, len_cp]
        have := len8_latin1 c
        simp only; omega
    have fin : ∀ k, k = (codePoint false .utf8 b.toNat).length →
        latin1ToUtf8Unsafe t (over mem p (codePoint false .utf8 b.toNat)) (p + k) =
        some (over mem p (text .utf8 ((b :: t).map UInt8.toNat)), p + (text .utf8 ((b :: t).map UInt8.toNat)).length) := by
      intro k hk
      rw [ih _ _ (by rw [over_length _ _ _ (by omega)]; omega), hk, over_over _ _ _ _ (by omega), List.map_cons, text_cons,
        List.length_append, Nat.add_assoc]
    unfold latin1ToUtf8Unsafe
    by_cases hb : b.toUInt32 ≤ 0x7F
    · simp only [hb, if_true]
      have l1 : 1 = (codePoint false .utf8 b.toNat).length := by rw [← latin1_one b hb]; rfl
      rw [latin1_one b hb, store_spec _ _ _ (by omega)]
      exact fin 1 l1
    · simp only [hb, if_false]
      have l1 : 2 = (codePoint false .utf8 b.toNat).length := by rw [← latin1_two b hb]; rfl
      rw [latin1_two b hb, store_spec _ _ _ (by omega)]
      exact fin 2 l1

theorem latin1ToUtf8Safe_spec (mem0 : List UInt8) (src : List UInt8) : ∀ (w : Writer) (i : Nat) (cs0 : List Nat),
    w.stop = mem0.length → w.ptr = (text .utf8 cs0).length → w.ptr ≤ w.stop → w.mem = over mem0 0 (text .utf8 cs0) →
    ∃ r cs rest, latin1ToUtf8Safe src w i = some r ∧ src = cs ++ rest ∧
      r.mem = over mem0 0 (text .utf8 (cs0 ++ cs.map UInt8.toNat)) ∧
      (text .utf8 (cs0 ++ cs.map UInt8.toNat)).length ≤ mem0.length ∧
      ((r.res = .success ∧ rest = [] ∧ r.dstIndex = 0 ∧ r.srcIndex = 0) ∨
       (r.res = .noSpaceLeft ∧ r.dstIndex = (text .utf8 (cs0 ++ cs.map UInt8.toNat)).length ∧ r.srcIndex = i + cs.length ∧
          ∃ b t, rest = b :: t ∧ mem0.length < (text .utf8 (cs0 ++ cs.map UInt8.toNat ++ [b.toNat])).length)) := by
  induction src with
  | nil =>
    intro w i cs0 h1 h2 h3 h4
    exact ⟨_, [], [], rfl, rfl, by simpa using h4, by simp; omega, Or.inl ⟨rfl, rfl, rfl, rfl⟩⟩
  | cons b t ih =>
    intro w i cs0 h1 h2 h3 h4
    have hb := b.toNat_lt
    have hml : w.mem.length = mem0.length := by rw [h4, over_length _ _ _ (by omega)]
    unfold latin1ToUtf8Safe
    have key := write8_spec w b.toUInt32 b.toNat (toUInt32_toNat b) (by omega) (by omega) h3
    by_cases hfit : w.ptr + (utf8 b.toNat).length ≤ w.stop
    · rw [if_pos hfit] at key
      have lc := len_cp false .utf8 b.toNat
      simp only at lc
      obtain ⟨r, cs, rest, a1, a2, a3, a4, a5⟩ := ih
        { w with mem := over w.mem w.ptr (codePoint false .utf8 b.toNat), ptr := w.ptr + (utf8 b.toNat).length } (i + 1)
        (cs0 ++ [b.toNat]) h1 (by rw [text_append, List.length_append, text_cons, text_nil, List.append_nil]; simp only; omega)
        hfit (by
          have := over_over mem0 (text .utf8 cs0) (codePoint false .utf8 b.toNat) 0 (by omega)
          rw [Nat.zero_add] at this
          simp only
          rw [h4, h2, this, text_append, text_cons, text_nil, List.append_nil])
      refine ⟨r, b :: cs, rest, ?_, by rw [a2]; rfl, by simpa using a3, by simpa using a4, ?_⟩
      · simp only [key, Option.bind_eq_bind, Option.bind_some, ne_eq, not_true_eq_false, if_false]
        exact a1
      · rcases a5 with h | ⟨q1, q2, q3, q4⟩
        · exact Or.inl h
        · exact Or.inr ⟨q1, by simpa using q2, by rw [q3, List.length_cons]; omega, by simpa using q4⟩
    · rw [if_neg hfit] at key
      refine ⟨⟨.noSpaceLeft, w.mem, w.ptr, i⟩, [], b :: t, ?_, rfl, ?_, ?_, Or.inr ⟨rfl, ?_, ?_, b, t, rfl, ?_⟩⟩
      · simp only [key, Option.bind_eq_bind, Option.bind_some]; rfl
      · simpa using h4
      · simp; omega
      · simpa using h2
      · rfl
      · simp only [List.map_nil, List.append_nil]
        rw [text_append, List.length_append, text_cons, text_nil, List.append_nil, len_cp]; simp only; omega

theorem latin1ToWide_spec (e : Enc) (bytes : UInt32 → List UInt8) (k : Nat)
    (hb : ∀ b : UInt8, bytes b.toUInt32 = codePoint false e b.toNat) (hk : ∀ b : UInt8, (codePoint false e b.toNat).length = k)
    (src : List UInt8) : ∀ (mem : List UInt8) (i : Nat), (i + src.length) * k ≤ mem.length →
    latin1ToWide bytes k src mem i = some (over mem (i * k) (text e (src.map UInt8.toNat))) := by
  induction src with
  | nil => intro mem i h; simp [latin1ToWide, text_nil, over]
  | cons b t ih =>
    intro mem i h
    rw [List.length_cons] at h
    have h1 : (i + 1) * k ≤ mem.length := Nat.le_trans (Nat.mul_le_mul_right k (by omega)) h
    have h2 : (i + 1 + t.length) * k ≤ mem.length := by rw [show i + 1 + t.length = i + (t.length + 1) by omega]; exact h
    have h3 : (i + 1) * k = i * k + k := by rw [Nat.add_mul, Nat.one_mul]
    have ht : (text e (t.map UInt8.toNat)).length = t.length * k := by
      clear ih h h2
      induction t with
      | nil => simp [text_nil]
      | cons c t ih => rw [List.map_cons, text_cons, List.length_append, List.length_cons, hk, ih, Nat.add_mul, Nat.one_mul]; omega
    have h4 : (i + 1 + t.length) * k = i * k + k + t.length * k := by rw [Nat.add_mul, h3]
    unfold latin1ToWide
    rw [hb, store_spec _ _ _ (by rw [hk]; omega)]
    simp only [Option.bind_eq_bind, Option.bind_some]
    rw [ih _ _ (by rw [over_length _ _ _ (by rw [hk]; omega)]; omega), h3]
    congr 1
    have := over_over mem (codePoint false e b.toNat) (text e (t.map UInt8.toNat)) (i * k) (by rw [hk]; omega)
    rw [hk] at this
    rw [this, List.map_cons, text_cons]

theorem over_zero (mem bs : List UInt8) : over mem 0 bs = bs ++ mem.drop bs.length := by simp [over]

end Blend2D.Unicode
