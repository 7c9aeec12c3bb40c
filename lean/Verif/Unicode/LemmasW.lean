import Verif.Unicode.Lemmas16
/-! Writers, and the reader in one statement. -/
namespace Blend2D.Unicode
open Bits

/-! ### Stores -/

/-- `bs` written over `mem` at `p`. -/
def over (mem : List UInt8) (p : Nat) (bs : List UInt8) : List UInt8 :=
  mem.take p ++ bs ++ mem.drop (p + bs.length)

theorem store_spec (bs : List UInt8) : ∀ (mem : List UInt8) (p : Nat), p + bs.length ≤ mem.length →
    store mem p bs = some (over mem p bs) := by
  induction bs with
  | nil => intro mem p h; simp [store, over]
  | cons b t ih =>
    intro mem p h
    simp only [List.length_cons] at h
    unfold store
    rw [if_pos (by omega), ih _ _ (by simp; omega)]
    congr 1
    unfold over
    rw [List.take_set, List.drop_set_of_lt (by omega), List.length_cons, show p + 1 + t.length = p + (t.length + 1) by omega]
    congr 1
    rw [List.take_add_one, List.getElem?_eq_getElem (by omega)]
    rw [List.set_append_right _ _ (by simp [List.length_take]; omega)]
    simp [Nat.min_eq_left (show p ≤ mem.length by omega)]

theorem over_length (mem bs : List UInt8) (p : Nat) (h : p + bs.length ≤ mem.length) :
    (over mem p bs).length = mem.length := by
  unfold over; simp; omega

theorem over_over (mem a b : List UInt8) (p : Nat) (h : p + a.length + b.length ≤ mem.length) :
    over (over mem p a) (p + a.length) b = over mem p (a ++ b) := by
  unfold over
  have h1 : (mem.take p).length = p := by simp; omega
  have h2 : (mem.take p ++ a).length = p + a.length := by simp; omega
  rw [List.take_append_of_le_length (by omega), List.take_of_length_le (by omega)]
  rw [List.drop_append, List.drop_of_length_le (by omega), List.nil_append, List.drop_drop, h2]
  simp only [List.length_append, List.append_assoc]
  congr 4; omega

/-! ### Writers -/

theorem byte_eq (u : UInt32) (n : Nat) (h : u.toNat % 256 = n) : byte u = UInt8.ofNat n := by
  unfold byte; subst h
  apply UInt8.toNat_inj.1; simp

theorem byte_or (k : UInt32) (x : UInt32) (m n : Nat) (hk : k.toNat % 2 ^ m = 0) (hx : x.toNat < 2 ^ m)
    (h : (k.toNat + x.toNat) % 256 = n) : byte (k ||| x) = UInt8.ofNat n := by
  apply byte_eq
  rw [UInt32.toNat_or, or_disjoint _ _ m hk hx, h]

theorem and63 (x : UInt32) : (x &&& 63).toNat = x.toNat % 64 := by
  rw [UInt32.toNat_and]; exact and_63 _

theorem shr (x : UInt32) (k : UInt32) (hk : k.toNat < 32) : (x >>> k).toNat = x.toNat / 2 ^ k.toNat := by
  rw [UInt32.toNat_shiftRight, Nat.mod_eq_of_lt hk, Nat.shiftRight_eq_div_pow]

theorem len_cp (be : Bool) (e : Enc) (c : Nat) :
    (Spec.codePoint be e c).length = match e with
      | .latin1 => 1 | .utf8 => (Spec.utf8 c).length | .utf16 => 2 * (Spec.utf16 c).length | .utf32 => 4 := by
  cases e
  · rfl
  · simp [Spec.codePoint]
  · exact len_cp16 be c
  · simp [Spec.codePoint, len_unit32]

theorem le_lit (uc k : UInt32) : uc ≤ k ↔ uc.toNat ≤ k.toNat := UInt32.le_iff_toNat_le

theorem utf8_1 (c : Nat) (h : c ≤ 127) : Spec.utf8 c = [c] := by unfold Spec.utf8; rw [if_pos (by omega)]
theorem utf8_2 (c : Nat) (h : ¬ c ≤ 127) (h2 : c ≤ 2047) : Spec.utf8 c = [0xC0 + c / 64, 0x80 + c % 64] := by
  unfold Spec.utf8; rw [if_neg (by omega), if_pos (by omega)]
theorem utf8_3 (c : Nat) (h : ¬ c ≤ 2047) (h2 : c ≤ 65535) :
    Spec.utf8 c = [0xE0 + c / 4096, 0x80 + c / 64 % 64, 0x80 + c % 64] := by
  unfold Spec.utf8; rw [if_neg (by omega), if_neg (by omega), if_pos (by omega)]
theorem utf8_4 (c : Nat) (h : ¬ c ≤ 65535) :
    Spec.utf8 c = [0xF0 + c / 262144, 0x80 + c / 4096 % 64, 0x80 + c / 64 % 64, 0x80 + c % 64] := by
  unfold Spec.utf8; rw [if_neg (by omega), if_neg (by omega), if_neg (by omega)]
theorem utf16_1 (c : Nat) (h : c ≤ 65535) : Spec.utf16 c = [c] := by unfold Spec.utf16; rw [if_pos (by omega)]
theorem utf16_2 (c : Nat) (h : ¬ c ≤ 65535) :
    Spec.utf16 c = [0xD800 + (c - 0x10000) / 1024, 0xDC00 + (c - 0x10000) % 1024] := by
  unfold Spec.utf16; rw [if_neg (by omega)]

theorem write8_spec (w : Writer) (uc : UInt32) (c : Nat) (hc : uc.toNat = c) (hmax : c ≤ 0x10FFFF)
    (hs : w.stop ≤ w.mem.length) (hp : w.ptr ≤ w.stop) :
    write8 w uc = some (if w.ptr + (Spec.utf8 c).length ≤ w.stop then
      (.success, { w with mem := over w.mem w.ptr (Spec.codePoint false .utf8 c), ptr := w.ptr + (Spec.utf8 c).length })
      else (.noSpaceLeft, w)) := by
  unfold write8
  simp only [le_lit, UInt32.reduceToNat, hc]
  rw [utf8_bytes]
  have s6 := shr uc 6 (by decide)
  have s12 := shr uc 12 (by decide)
  have s18 := shr uc 18 (by decide)
  rw [hc] at s6 s12 s18
  simp only [UInt32.reduceToNat, Nat.reducePow] at s6 s12 s18
  have m0 := and63 uc
  have m6 := and63 (uc >>> 6)
  have m12 := and63 (uc >>> 12)
  rw [hc] at m0
  rw [s6] at m6
  rw [s12] at m12
  by_cases h1 : c ≤ 127
  · rw [if_pos h1, utf8_1 c h1]
    simp only [List.map_cons, List.map_nil, List.length_cons, List.length_nil]
    by_cases h : w.ptr = w.stop
    · rw [if_pos h, if_neg (by omega)]
    · rw [if_neg h, if_pos (by omega), byte_eq uc c (by omega), store_spec _ _ _ (by simp; omega)]; rfl
  rw [if_neg h1]
  by_cases h2 : c ≤ 2047
  · rw [if_pos h2, utf8_2 c h1 h2]
    simp only [List.map_cons, List.map_nil, List.length_cons, List.length_nil]
    by_cases h : w.ptr + 2 > w.stop
    · rw [if_pos h, if_neg (by simp only [Nat.zero_add]; omega)]; simp
    · rw [if_neg h, if_pos (show w.ptr + 2 ≤ w.stop by omega),
        byte_or 0xC0 _ 6 (0xC0 + c / 64) (by decide) (by rw [s6]; omega) (by rw [s6]; simp only [UInt32.reduceToNat]; omega),
        byte_or 0x80 _ 6 (0x80 + c % 64) (by decide) (by rw [m0]; omega) (by rw [m0]; simp only [UInt32.reduceToNat]; omega),
        Nat.add_sub_cancel, store_spec _ _ _ (by simp; omega)]; rfl
  rw [if_neg h2]
  by_cases h3 : c ≤ 65535
  · rw [if_pos h3, utf8_3 c h2 h3]
    simp only [List.map_cons, List.map_nil, List.length_cons, List.length_nil]
    by_cases h : w.ptr + 3 > w.stop
    · rw [if_pos h, if_neg (by simp only [Nat.zero_add]; omega)]; simp
    · rw [if_neg h, if_pos (show w.ptr + 3 ≤ w.stop by omega),
        byte_or 0xE0 _ 5 (0xE0 + c / 4096) (by decide) (by rw [s12]; omega) (by rw [s12]; simp only [UInt32.reduceToNat]; omega),
        byte_or 0x80 (uc >>> 6 &&& 63) 6 (0x80 + c / 64 % 64) (by decide) (by rw [m6]; omega) (by rw [m6]; simp only [UInt32.reduceToNat]; omega),
        byte_or 0x80 _ 6 (0x80 + c % 64) (by decide) (by rw [m0]; omega) (by rw [m0]; simp only [UInt32.reduceToNat]; omega),
        Nat.add_sub_cancel, store_spec _ _ _ (by simp; omega)]; rfl
  · rw [if_neg h3, utf8_4 c h3]
    simp only [List.map_cons, List.map_nil, List.length_cons, List.length_nil]
    by_cases h : w.ptr + 4 > w.stop
    · rw [if_pos h, if_neg (by simp only [Nat.zero_add]; omega)]; simp
    · rw [if_neg h, if_pos (show w.ptr + 4 ≤ w.stop by omega),
        byte_or 0xF0 _ 4 (0xF0 + c / 262144) (by decide) (by rw [s18]; omega) (by rw [s18]; simp only [UInt32.reduceToNat]; omega),
        byte_or 0x80 (uc >>> 12 &&& 63) 6 (0x80 + c / 4096 % 64) (by decide) (by rw [m12]; omega) (by rw [m12]; simp only [UInt32.reduceToNat]; omega),
        byte_or 0x80 (uc >>> 6 &&& 63) 6 (0x80 + c / 64 % 64) (by decide) (by rw [m6]; omega) (by rw [m6]; simp only [UInt32.reduceToNat]; omega),
        byte_or 0x80 _ 6 (0x80 + c % 64) (by decide) (by rw [m0]; omega) (by rw [m0]; simp only [UInt32.reduceToNat]; omega),
        Nat.add_sub_cancel, store_spec _ _ _ (by simp; omega)]; rfl

theorem bytes16_eq (u : UInt32) (n : Nat) (h : u.toNat = n) (hn : n < 65536) :
    bytes16 u = (Spec.unit16 false n).map UInt8.ofNat := by
  unfold bytes16 Spec.unit16
  have := shr u 8 (by decide)
  rw [h] at this
  simp only [UInt32.reduceToNat, Nat.reducePow] at this
  simp only [Bool.false_eq_true, if_false, List.map_cons, List.map_nil]
  rw [byte_eq u (n % 256) (by omega), byte_eq (u >>> 8) (n / 256) (by rw [this]; omega)]

theorem bytes32_eq (u : UInt32) (n : Nat) (h : u.toNat = n) :
    bytes32 u = (Spec.unit32 false n).map UInt8.ofNat := by
  unfold bytes32 Spec.unit32
  have s8 := shr u 8 (by decide)
  have s16 := shr u 16 (by decide)
  have s24 := shr u 24 (by decide)
  rw [h] at s8 s16 s24
  simp only [UInt32.reduceToNat, Nat.reducePow] at s8 s16 s24
  have := u.toNat_lt
  simp only [Bool.false_eq_true, if_false, List.map_cons, List.map_nil]
  rw [byte_eq u (n % 256) (by omega), byte_eq (u >>> 8) (n / 256 % 256) (by rw [s8]),
    byte_eq (u >>> 16) (n / 65536 % 256) (by rw [s16]), byte_eq (u >>> 24) (n / 16777216) (by rw [s24]; omega)]

theorem unit16_len (n : Nat) : ((Spec.unit16 false n).map UInt8.ofNat).length = 2 := by simp [len_unit16]

theorem write16_spec (w : Writer) (uc : UInt32) (c : Nat) (hc : uc.toNat = c) (hmax : c ≤ 0x10FFFF)
    (hs : w.stop * 2 ≤ w.mem.length) (hp : w.ptr ≤ w.stop) :
    write16 w uc = some (if w.ptr + (Spec.utf16 c).length ≤ w.stop then
      (.success, { w with mem := over w.mem (w.ptr * 2) (Spec.codePoint false .utf16 c), ptr := w.ptr + (Spec.utf16 c).length })
      else (.noSpaceLeft, w)) := by
  unfold write16
  simp only [le_lit, UInt32.reduceToNat, hc]
  unfold Spec.codePoint
  simp only
  by_cases h1 : c ≤ 65535
  · rw [if_pos h1, utf16_1 c h1]
    simp only [List.flatMap_cons, List.flatMap_nil, List.append_nil, List.length_cons, List.length_nil]
    by_cases h : w.ptr = w.stop
    · rw [if_pos h, if_neg (by omega)]
    · rw [if_neg h, if_pos (by omega), bytes16_eq uc c hc (by omega),
        store_spec _ _ _ (by rw [unit16_len]; omega)]; rfl
  · rw [if_neg h1, utf16_2 c h1]
    simp only [List.flatMap_cons, List.flatMap_nil, List.append_nil, List.length_cons, List.length_nil]
    by_cases h : w.ptr + 2 > w.stop
    · rw [if_pos h, if_neg (by omega)]; simp
    · rw [if_neg h, if_pos (by omega)]
      have e0 : (uc - 0x10000).toNat = c - 0x10000 := by
        rw [UInt32.toNat_sub, hc]; simp only [UInt32.reduceToNat]; omega
      have e1 : ((0xD800 : UInt32) ||| ((uc - 0x10000) >>> 10)).toNat = 0xD800 + (c - 0x10000) / 1024 := by
        rw [UInt32.toNat_or, shr _ 10 (by decide), e0]
        exact or_disjoint 0xD800 _ 11 (by decide) (by simp only [UInt32.reduceToNat]; omega)
      have e2 : ((0xDC00 : UInt32) ||| ((uc - 0x10000) &&& 0x3FF)).toNat = 0xDC00 + (c - 0x10000) % 1024 := by
        rw [UInt32.toNat_or, UInt32.toNat_and, e0]
        have : (c - 0x10000) &&& UInt32.toNat 0x3FF = (c - 0x10000) % 1024 := and_mask _ 10
        rw [this]
        exact or_disjoint 0xDC00 _ 10 (by decide) (by omega)
      simp only [charToSurrogate]
      rw [bytes16_eq _ _ e1 (by omega), bytes16_eq _ _ e2 (by omega),
        store_spec _ _ _ (by rw [unit16_len]; omega)]
      simp only [Option.bind_eq_bind, Option.bind_some]
      rw [store_spec _ _ _ (by rw [over_length _ _ _ (by rw [unit16_len]; omega), unit16_len]; omega)]
      simp only [Option.bind_some, Nat.add_sub_cancel]
      have l := unit16_len (0xD800 + (c - 0x10000) / 1024)
      have := over_over w.mem ((Spec.unit16 false (0xD800 + (c - 0x10000) / 1024)).map UInt8.ofNat)
        ((Spec.unit16 false (0xDC00 + (c - 0x10000) % 1024)).map UInt8.ofNat) (w.ptr * 2)
        (by rw [unit16_len, unit16_len]; omega)
      rw [l] at this
      rw [show (w.ptr + 2 - 1) * 2 = w.ptr * 2 + 2 by omega, this, List.map_append]
      rfl

theorem write32_spec (w : Writer) (uc : UInt32) (c : Nat) (hc : uc.toNat = c)
    (hs : w.stop * 4 ≤ w.mem.length) (hp : w.ptr ≤ w.stop) :
    write32 w uc = some (if w.ptr + 1 ≤ w.stop then
      (.success, { w with mem := over w.mem (w.ptr * 4) (Spec.codePoint false .utf32 c), ptr := w.ptr + 1 })
      else (.noSpaceLeft, w)) := by
  unfold write32
  by_cases h : w.ptr = w.stop
  · rw [if_pos h, if_neg (by omega)]
  · rw [if_neg h, if_pos (by omega), bytes32_eq uc c hc, store_spec _ _ _ (by simp [len_unit32]; omega)]; rfl

/-- Every writer: appends the encoding of `c` if it fits, otherwise reports `NO_SPACE_LEFT` untouched. -/
theorem write_spec (e : Enc) (he : e ≠ .latin1) (w : Writer) (uc : UInt32) (c : Nat) (hc : uc.toNat = c)
    (hmax : c ≤ 0x10FFFF) (hs : w.stop * charSize e ≤ w.mem.length) (hp : w.ptr ≤ w.stop) :
    (w.ptr * charSize e + (Spec.codePoint false e c).length ≤ w.stop * charSize e ∧
      ∃ p', p' * charSize e = w.ptr * charSize e + (Spec.codePoint false e c).length ∧ p' ≤ w.stop ∧
      write e w uc = some (.success, { w with mem := over w.mem (w.ptr * charSize e) (Spec.codePoint false e c), ptr := p' })) ∨
    (w.stop * charSize e < w.ptr * charSize e + (Spec.codePoint false e c).length ∧
      write e w uc = some (.noSpaceLeft, w)) := by
  cases e
  · exact absurd rfl he
  · simp only [charSize, len_cp, Nat.mul_one] at hs ⊢
    have key := write8_spec w uc c hc hmax hs hp
    by_cases h : w.ptr + (Spec.utf8 c).length ≤ w.stop
    · rw [if_pos h] at key; exact Or.inl ⟨h, _, rfl, h, key⟩
    · rw [if_neg h] at key; exact Or.inr ⟨by omega, key⟩
  · simp only [charSize, len_cp] at hs ⊢
    have key := write16_spec w uc c hc hmax hs hp
    by_cases h : w.ptr + (Spec.utf16 c).length ≤ w.stop
    · rw [if_pos h] at key; exact Or.inl ⟨by omega, _, by omega, h, key⟩
    · rw [if_neg h] at key; exact Or.inr ⟨by omega, key⟩
  · simp only [charSize, len_cp] at hs ⊢
    have key := write32_spec w uc c hc hs hp
    by_cases h : w.ptr + 1 ≤ w.stop
    · rw [if_pos h] at key; exact Or.inl ⟨by omega, _, by omega, h, key⟩
    · rw [if_neg h] at key; exact Or.inr ⟨by omega, key⟩

/-! ### Readers -/

/-- Code points the strict reader of an encoding accepts. -/
def Accepts (e : Enc) (c : Nat) : Prop := c ≤ 0x10FFFF ∧ (e ≠ .utf8 → ¬ Spec.Surrogate c)

theorem next_complete (e : Enc) (he : e ≠ .latin1) (f : Flags) (src : List UInt8) (stop : Nat) (r : Reader)
    (hstop : stop ≤ src.length) (c : Nat) (hc : Accepts e c)
    (hp : Spec.codePoint f.swap e c <+: win src stop r.ptr) :
    next e f src stop r = some (okStep f e r c) := by
  cases e
  · exact absurd rfl he
  · obtain ⟨u, a, b⟩ := next8_complete f src stop r hstop c hc.1 hp
    unfold next
    simp only
    rw [a, u32_eq u c b]
    unfold okStep
    simp only [len_cp]
  · exact next16_complete f src stop r hstop c ⟨hc.1, hc.2 (by simp)⟩ hp
  · exact next32_complete f src stop r hstop c ⟨hc.1, hc.2 (by simp)⟩ hp

theorem next_spec (e : Enc) (he : e ≠ .latin1) (f : Flags) (src : List UInt8) (stop : Nat) (r : Reader)
    (hstop : stop ≤ src.length) (hlt : r.ptr < stop) (hal : (stop - r.ptr) % charSize e = 0) :
    (∃ c, Readable f e c ∧ Spec.codePoint f.swap e c <+: win src stop r.ptr ∧
      next e f src stop r = some (okStep f e r c)) ∨
    (∃ err u n, (err = .invalidString ∨ err = .dataTruncated) ∧ next e f src stop r = some (err, u, n, r) ∧
      ∀ c, Accepts e c → ¬ Spec.codePoint f.swap e c <+: win src stop r.ptr) := by
  have key : (∃ c, Readable f e c ∧ Spec.codePoint f.swap e c <+: win src stop r.ptr ∧
      next e f src stop r = some (okStep f e r c)) ∨
    (∃ err u n, (err = .invalidString ∨ err = .dataTruncated) ∧ next e f src stop r = some (err, u, n, r)) := by
    cases e
    · exact absurd rfl he
    · rcases next8_sound f src stop r hstop hlt with ⟨c, u, n, r', h1, h2, h3⟩ | h
      · exact Or.inl ⟨c, ⟨h1, by simp⟩, h2, next_complete .utf8 he f src stop r hstop c ⟨h1, by simp⟩ h2⟩
      · exact Or.inr h
    · simp only [charSize] at hal
      exact next16_sound f src stop r hstop (by omega) hal
    · simp only [charSize] at hal
      exact next32_sound f src stop r hstop (by omega)
  rcases key with h | ⟨err, u, n, h1, h2⟩
  · exact Or.inl h
  · refine Or.inr ⟨err, u, n, h1, h2, ?_⟩
    intro c hc hp
    have := next_complete e he f src stop r hstop c hc hp
    rw [h2] at this
    unfold okStep at this
    simp only [Option.some.injEq, Prod.mk.injEq] at this
    rcases h1 with h | h <;> rw [h] at this <;> exact absurd this.1 (by simp)

theorem cp_pos (be : Bool) (e : Enc) (c : Nat) : 0 < (Spec.codePoint be e c).length := by
  rw [len_cp]; cases e <;> simp
  · unfold Spec.utf8; (repeat' split) <;> simp
  · unfold Spec.utf16; split <;> simp

theorem cp_mod (be : Bool) (e : Enc) (c : Nat) : (Spec.codePoint be e c).length % charSize e = 0 := by
  rw [len_cp]; cases e <;> simp [charSize, Nat.mod_one]

end Blend2D.Unicode
