import Verif.GlyphBuffer.Text
/-! The specification of decoding is a function: a text has exactly one decoding. -/
namespace Blend2D.GlyphBuffer
open Blend2D.Unicode (Enc Reader win next okStep Accepts charSize next_complete okStep_uc cp_pos)
open Blend2D.Unicode.Spec (codePoint Carried Surrogate Scalar text Encodable)

theorem ofNat32_inj {a b : Nat} (ha : a ≤ 0x10FFFF) (hb : b ≤ 0x10FFFF) (h : UInt32.ofNat a = UInt32.ofNat b) :
    a = b := by
  have h3 := congrArg UInt32.toNat h
  simp only [UInt32.toNat_ofNat'] at h3
  omega

theorem ofNat8 (a b : Nat) (h : UInt8.ofNat a = UInt8.ofNat b) : a % 256 = b % 256 := by
  have h3 := congrArg UInt8.toNat h
  simpa [UInt8.toNat_ofNat'] using h3

theorem carried_le {e : Enc} {c : Nat} (h : Carried e c) : c ≤ 0x10FFFF := by
  cases e
  · have : c < 256 := h; omega
  · exact h
  · exact h.1
  · exact h.1

/-- Two code points that start the same text are equal. -/
theorem carried_unique {e : Enc} {c c' : Nat} {bs : List UInt8} (h : Carried e c) (h' : Carried e c')
    (hp : codePoint false e c <+: bs) (hp' : codePoint false e c' <+: bs) : c = c' := by
  by_cases he : e = .latin1
  · subst he
    have k1 : c < 256 := h
    have k2 : c' < 256 := h'
    obtain ⟨t, ht⟩ := hp
    obtain ⟨t', ht'⟩ := hp'
    simp only [codePoint, List.map_cons, List.map_nil, List.cons_append, List.nil_append] at ht ht'
    rw [← ht] at ht'
    have := ofNat8 _ _ (List.cons.inj ht').1
    omega
  · have hw : win bs bs.length ({ ptr := 0 } : Reader).ptr = bs := by simp [win]
    have a := next_complete e he {} bs bs.length { ptr := 0 } (Nat.le_refl _) c ((carried_accepts he c).1 h)
      (by rw [hw]; exact hp)
    have b := next_complete e he {} bs bs.length { ptr := 0 } (Nat.le_refl _) c' ((carried_accepts he c').1 h')
      (by rw [hw]; exact hp')
    rw [a] at b
    have h2 : (okStep {} e { ptr := 0 } c).2.1 = (okStep {} e { ptr := 0 } c').2.1 := by rw [Option.some.inj b]
    rw [okStep_uc, okStep_uc] at h2
    exact ofNat32_inj (carried_le h) (carried_le h') h2

theorem lone_unique {e : Enc} (h8 : e ≠ .utf8) (h1 : e ≠ .latin1) {c c' : Nat} (h : Surrogate c) (h' : Surrogate c')
    {r r' : List UInt8} (heq : codePoint false e c ++ r = codePoint false e c' ++ r') : c = c' := by
  unfold Surrogate at h h'
  cases e
  · exact absurd rfl h1
  · exact absurd rfl h8
  · simp only [codePoint, Unicode.Spec.utf16, if_pos (show c < 0x10000 by omega), if_pos (show c' < 0x10000 by omega),
      Unicode.Spec.unit16, Bool.false_eq_true, if_false, List.flatMap_cons, List.flatMap_nil, List.append_nil,
      List.map_cons, List.map_nil, List.cons_append, List.nil_append, List.cons.injEq] at heq
    have a := ofNat8 _ _ heq.1
    have b := ofNat8 _ _ heq.2.1
    omega
  · simp only [codePoint, Unicode.Spec.unit32, Bool.false_eq_true, if_false,
      List.map_cons, List.map_nil, List.cons_append, List.nil_append, List.cons.injEq] at heq
    have a := ofNat8 _ _ heq.1
    have b := ofNat8 _ _ heq.2.1
    have c := ofNat8 _ _ heq.2.2.1
    omega

theorem decodes_unique (e : Enc) {k : Nat} {bs : List UInt8} {out out' : List (Nat × Nat)}
    (h : Spec.Decodes e k bs out) (h' : Spec.Decodes e k bs out') : out = out' := by
  have pos : ∀ c, codePoint false e c ≠ [] := by
    intro c hc
    have := cp_pos false e c
    rw [hc] at this; simp at this
  have upos : 0 < Spec.unitBytes e := by cases e <;> simp [Spec.unitBytes]
  have nonempty : ∀ (bytes : List UInt8), bytes.length = Spec.unitBytes e → bytes ≠ [] := by
    intro bytes hb h; rw [h] at hb; simp at hb; omega
  have key : ∀ {k' bs'}, k' = k → bs' = bs → Spec.Decodes e k' bs' out' → out = out' := by
    clear h'
    induction h generalizing out' with
    | done k =>
      intro k' bs' hk hb h'
      cases h' with
      | done => rfl
      | char _ c => exact absurd (List.append_eq_nil_iff.1 hb).1 (pos c)
      | lone _ c => exact absurd (List.append_eq_nil_iff.1 hb).1 (pos c)
      | bad _ b _ _ h1 => exact absurd (List.append_eq_nil_iff.1 hb).1 (nonempty b h1)
    | char k c rest out hc _ ih =>
      intro k' bs' hk hb h'
      subst hk
      cases h' with
      | done => exact absurd (List.append_eq_nil_iff.1 hb.symm).1 (pos c)
      | char _ c' rest' out' hc' hd =>
        have : c = c' := carried_unique hc hc' (List.prefix_append _ rest) (hb ▸ List.prefix_append _ rest')
        subst this
        rw [ih rfl (List.append_cancel_left hb) hd]
      | lone _ c' rest' out' _ _ _ hno => exact absurd (hb ▸ List.prefix_append _ rest) (hno c hc)
      | bad _ b rest' _ _ hno => exact absurd (hb ▸ List.prefix_append _ rest) (hno c (carried_le hc))
    | lone k c rest out hs h8 h1 hno _ ih =>
      intro k' bs' hk hb h'
      subst hk
      cases h' with
      | done => exact absurd (List.append_eq_nil_iff.1 hb.symm).1 (pos c)
      | char _ c' rest' out' hc' hd => exact absurd (hb ▸ List.prefix_append _ rest') (hno c' hc')
      | lone _ c' rest' out' hs' _ _ _ hd =>
        have : c = c' := lone_unique h8 h1 hs hs' hb.symm
        subst this
        rw [ih rfl (List.append_cancel_left hb) hd]
      | bad _ b rest' _ _ hno' =>
        exact absurd (hb ▸ List.prefix_append _ rest) (hno' c (by unfold Surrogate at hs; omega))
    | bad k b rest out hb1 hno _ ih =>
      intro k' bs' hk hb h'
      subst hk
      cases h' with
      | done => exact absurd (List.append_eq_nil_iff.1 hb.symm).1 (nonempty b hb1)
      | char _ c' rest' out' hc' hd => exact absurd (hb ▸ List.prefix_append _ rest') (hno c' (carried_le hc'))
      | lone _ c' rest' out' hs' _ _ _ hd =>
        exact absurd (hb ▸ List.prefix_append _ rest') (hno c' (by unfold Surrogate at hs'; omega))
      | bad _ b' rest' _ hb1' _ hd =>
        have := List.append_inj hb (by omega)
        rw [ih rfl this.2 hd]
  exact key rfl rfl h'

theorem encodable_carried {e : Enc} {c : Nat} (h : Encodable e c) : Carried e c := by
  cases e
  · exact h
  · exact h.1
  · exact h
  · exact h

/-- Well-formed text decodes to its code points. -/
theorem decodes_text (e : Enc) : ∀ (cs : List Nat) (k : Nat), (∀ c ∈ cs, Encodable e c) →
    Spec.Decodes e k (text e cs) (cs.zip (Spec.starts e k cs)) := by
  intro cs
  induction cs with
  | nil => intro k _; exact .done k
  | cons c t ih =>
    intro k h
    rw [Unicode.text_cons]
    exact .char _ _ _ _ (encodable_carried (h c (by simp))) (ih _ (fun x hx => h x (by simp [hx])))

end Blend2D.GlyphBuffer
