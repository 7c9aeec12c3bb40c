import Verif.Glyf.Safe
import Verif.Glyf.Spec
/-! The decoder of compound glyphs stays inside of the tables, and ends. -/
namespace Blend2D.Glyf
open Blend2D.Kern (u8 u16 u32 i16)

theorem drop_cons {d : List UInt8} {i : Nat} (h : i < d.length) : d.drop i = d[i] :: d.drop (i + 1) :=
  List.drop_eq_getElem_cons h

theorem field2 {d : List UInt8} {i : Nat} : Spec.field d i 2 = u16 d i := by
  unfold Spec.field
  split
  · rename_i h
    rw [drop_cons (by omega), drop_cons (i := i + 1) (by omega)]
    simp only [u16, Kern.u8_some (show i < d.length by omega), Kern.u8_some (show i + 1 < d.length by omega)]
    simp only [Spec.be, List.take_succ_cons, List.take_zero, List.foldl_cons, List.foldl_nil, Nat.zero_mul, Nat.zero_add]
    rfl
  · rename_i h
    unfold u16
    by_cases h1 : i < d.length
    · have : u8 d (i + 1) = none := by simp [u8, show d.length ≤ i + 1 by omega]
      simp [this]
    · have : u8 d i = none := by simp [u8, show d.length ≤ i by omega]
      simp [this]

theorem field4 {d : List UInt8} {i : Nat} : Spec.field d i 4 = u32 d i := by
  unfold Spec.field
  split
  · rename_i h
    rw [drop_cons (by omega), drop_cons (i := i + 1) (by omega), drop_cons (i := i + 1 + 1) (by omega),
      drop_cons (i := i + 1 + 1 + 1) (by omega)]
    simp only [u32, u16, Kern.u8_some (show i < d.length by omega), Kern.u8_some (show i + 1 < d.length by omega),
      Kern.u8_some (show i + 2 < d.length by omega), Kern.u8_some (show i + 2 + 1 < d.length by omega)]
    simp only [Spec.be, List.take_succ_cons, List.take_zero, List.foldl_cons, List.foldl_nil, Nat.zero_mul, Nat.zero_add]
    simp only [Option.bind_eq_bind, Option.bind_some, Option.some.injEq, Nat.add_assoc, Nat.reduceAdd]
    omega
  · rename_i h
    have h3 : u16 d (i + 2) = none := by
      rw [← field2, Spec.field, if_neg (by omega)]
    simp [u32, h3]

/-- The offsets are the entries of `loca`. -/
theorem offsets_spec (F : Font) (gid : Nat) :
    offsets F gid = match Spec.entry F gid, Spec.entry F (gid + 1) with
      | some a, some b => .ok (a, b)
      | _, _ => .error .invalidData := by
  unfold offsets Spec.entry
  split
  · rename_i hs
    simp only [Spec.field]
    split
    · rename_i h
      rw [if_neg (show ¬ (gid + 1) * 2 + 2 ≤ F.loca.length by omega)]
      cases (if gid * 2 + 2 ≤ F.loca.length then _ else _) <;> rfl
    · rename_i h
      have h1 := field2 (d := F.loca) (i := gid * 2)
      have h2 := field2 (d := F.loca) (i := gid * 2 + 2)
      rw [← h1, ← h2, show (gid + 1) * 2 = gid * 2 + 2 by omega]
      simp only [Spec.field, if_pos (show gid * 2 + 2 ≤ F.loca.length by omega),
        if_pos (show gid * 2 + 2 + 2 ≤ F.loca.length by omega)]
      rfl
  · rename_i hs
    simp only [Spec.field]
    split
    · rename_i h
      rw [if_neg (show ¬ (gid + 1) * 4 + 4 ≤ F.loca.length by omega)]
      cases (if gid * 4 + 4 ≤ F.loca.length then _ else _) <;> rfl
    · rename_i h
      have h1 := field4 (d := F.loca) (i := gid * 4)
      have h2 := field4 (d := F.loca) (i := gid * 4 + 4)
      rw [← h1, ← h2, show (gid + 1) * 4 = gid * 4 + 4 by omega]
      simp only [Spec.field, if_pos (show gid * 4 + 4 ≤ F.loca.length by omega),
        if_pos (show gid * 4 + 4 + 4 ≤ F.loca.length by omega)]
      rfl

theorem offsets_ok (F : Font) (gid : Nat) : Ok (offsets F gid) (fun r => offsets F gid = .ok r) := by
  rw [offsets_spec]
  split
  · rfl
  · exact Err.noConfusion

/-- The data of every entry is in the table. -/
def SInv (F : Font) (l : List Entry) : Prop := ∀ e ∈ l, e.p + e.size ≤ F.glyf.length

/-- The work that entries can still cause. -/
def phi (B : Nat) : List Entry → Nat
  | [] => 0
  | e :: l => e.size * B ^ (15 - l.length) + phi B l

/-- ... with that of the glyph that is decoded next. -/
def work (B : Nat) (l : List Entry) : Nat := phi B l + B ^ (16 - l.length)

theorem args_ok {g : List UInt8} {flags p size : Nat} (h : p + 6 + size ≤ g.length) :
    Ok (args g flags p size) (fun r => r.2.2.1 + r.2.2.2 ≤ g.length ∧ r.2.2.2 ≤ size) := by
  unfold args
  refine (ok_i8 (by omega)).bind fun a _ => ?_
  refine (ok_i8 (by omega)).bind fun b _ => ?_
  split
  · split
    · exact Err.noConfusion
    · refine (ok_u8 (by omega)).bind fun lo _ => ?_
      refine (ok_i16 (by omega)).bind fun b _ => ?_
      show Ok (if flags &&& 2 = 0 then _ else _) _
      split <;> exact ⟨by simp only; omega, by simp only; omega⟩
  · split <;> exact ⟨h, Nat.le_refl _⟩

theorem f2x14_ok {g : List UInt8} {p : Nat} (h : p + 2 ≤ g.length) : Ok (f2x14 g p) (fun _ => True) :=
  (ok_i16 h).bind fun _ _ => trivial

theorem scale_ok {g : List UInt8} {flags p size : Nat} (h : p + size ≤ g.length) :
    Ok (scale g flags p size) (fun r => r.2.1 + r.2.2 ≤ g.length ∧ r.2.2 ≤ size) := by
  unfold scale
  split
  · exact ⟨h, Nat.le_refl _⟩
  · split
    · split
      · exact Err.noConfusion
      · refine (f2x14_ok (by omega)).bind fun _ _ => ⟨?_, ?_⟩ <;> (simp only; omega)
    · split
      · split
        · exact Err.noConfusion
        · refine (f2x14_ok (by omega)).bind fun _ _ => ?_
          refine (f2x14_ok (by omega)).bind fun _ _ => ⟨?_, ?_⟩ <;> (simp only; omega)
      · split
        · exact Err.noConfusion
        · refine (f2x14_ok (by omega)).bind fun _ _ => ?_
          refine (f2x14_ok (by omega)).bind fun _ _ => ?_
          refine (f2x14_ok (by omega)).bind fun _ _ => ?_
          refine (f2x14_ok (by omega)).bind fun _ _ => ⟨?_, ?_⟩ <;> (simp only; omega)

/-- What a round that does not end leads to. -/
def NextOk (F : Font) (w : Nat) : Next → Prop
  | .done _ => True
  | .more s => SInv F s.stack ∧ s.stack.length ≤ 15 ∧ work (F.glyf.length + 1) s.stack < w

theorem component_ok {F : Font} {root : Mat} {mag : Rat → Rat → Rat} {p size : Nat} {below : List Entry} {s : St}
    {w : Nat} (h : p + size ≤ F.glyf.length) (hb : SInv F below) (hl : below.length ≤ 14)
    (hw : phi (F.glyf.length + 1) below + size * (F.glyf.length + 1) ^ (15 - below.length) ≤ w) :
    Ok (component F root mag p size below s) (NextOk F w) := by
  unfold component
  split
  · exact Err.noConfusion
  · refine (ok_u16 (by omega)).bind fun flags _ => ?_
    refine (ok_u16 (by omega)).bind fun gid _ => ?_
    split
    · exact Err.noConfusion
    · refine (args_ok (by omega)).bind fun ⟨a, b, p1, s1⟩ h1 => ?_
      simp only at h1
      refine (scale_ok h1.1).bind fun ⟨⟨m00, m01, m10, m11⟩, p2, s2⟩ h2 => ?_
      simp only at h2
      refine ⟨?_, ?_, ?_⟩
      · intro e he
        rcases List.mem_cons.1 he with rfl | he
        · exact h2.1
        · exact hb e he
      · simp only [List.length_cons]; omega
      · simp only [work, phi, List.length_cons, show 16 - (below.length + 1) = 15 - below.length by omega]
        have hp : 0 < (F.glyf.length + 1) ^ (15 - below.length) := Nat.pow_pos (by omega)
        generalize (F.glyf.length + 1) ^ (15 - below.length) = q at hp hw
        have : (s2 + 2) * q ≤ size * q := Nat.mul_le_mul_right _ (by omega)
        rw [Nat.add_mul] at this
        omega

theorem phi_dropWhile (B : Nat) (q : Entry → Bool) (l : List Entry) : phi B (l.dropWhile q) ≤ phi B l := by
  induction l with
  | nil => exact Nat.le_refl _
  | cons e l ih =>
    rw [List.dropWhile_cons]
    split
    · simp only [phi]; omega
    · exact Nat.le_refl _

theorem afterGlyph_ok {F : Font} {root : Mat} {mag : Rat → Rat → Rat} {s : St} (h : SInv F s.stack)
    (hl : s.stack.length ≤ 15) {w : Nat} (hw : phi (F.glyf.length + 1) s.stack ≤ w) :
    Ok (afterGlyph F root mag s) (NextOk F w) := by
  unfold afterGlyph
  have h1 := phi_dropWhile (F.glyf.length + 1) (fun e => decide (e.flags &&& 0x20 = 0)) s.stack
  have h2 : (s.stack.dropWhile (fun e => decide (e.flags &&& 0x20 = 0))).length ≤ s.stack.length :=
    (List.dropWhile_sublist _).length_le
  have h3 : SInv F (s.stack.dropWhile (fun e => decide (e.flags &&& 0x20 = 0))) :=
    fun e he => h e ((List.dropWhile_sublist _).subset he)
  revert h1 h2 h3
  generalize s.stack.dropWhile (fun e => decide (e.flags &&& 0x20 = 0)) = l
  intro h1 h2 h3
  cases l with
  | nil => exact trivial
  | cons e below =>
    simp only [List.length_cons] at h2
    simp only [phi] at h1
    exact component_ok (h3 e (by simp)) (fun e he => h3 e (by simp [he])) (by omega) (by omega)

/-- Every simple glyph of the font has at most 32767 points. -/
def FewPoints (F : Font) : Prop := ∀ gid d, Spec.bytes F gid = some d → Spec.FewPoints d

theorem bytes_of_offsets {F : Font} {gid a b : Nat} (h : offsets F gid = .ok (a, b)) (hb : b ≤ F.glyf.length) :
    Spec.bytes F gid = some ((F.glyf.drop a).take (b - a)) := by
  rw [offsets_spec] at h
  unfold Spec.bytes
  revert h
  cases Spec.entry F gid with
  | none => intro h; simp at h
  | some x =>
    cases Spec.entry F (gid + 1) with
    | none => intro h; simp at h
    | some y =>
      intro h
      simp only [Except.ok.injEq, Prod.mk.injEq] at h
      simp only [h.1, h.2, if_pos hb]

theorem field_slice {g : List UInt8} {a n o k v : Nat} (h : Spec.field g (a + o) k = some v) (hn : o + k ≤ n)
    (hg : a + n ≤ g.length) : Spec.field ((g.drop a).take n) o k = some v := by
  unfold Spec.field at h ⊢
  have hl : ((g.drop a).take n).length = n := by simp; omega
  rw [if_pos (by omega)] at h ⊢
  rw [← h, List.drop_take, List.take_take, List.drop_drop]
  congr 3
  omega

theorem round_ok {F : Font} {root : Mat} {mag : Rat → Rat → Rat} {s : St} (hF : FewPoints F) (h : SInv F s.stack)
    (hl : s.stack.length ≤ 15) :
    Ok (round F root mag s) (NextOk F (work (F.glyf.length + 1) s.stack)) := by
  unfold round
  refine (offsets_ok F s.gid).bind fun ⟨a, b⟩ hab => ?_
  have hafter : ∀ t : St, t.stack = s.stack →
      Ok (afterGlyph F root mag t) (NextOk F (work (F.glyf.length + 1) s.stack)) := by
    intro t ht
    refine afterGlyph_ok (ht ▸ h) (ht ▸ hl) ?_
    rw [ht]
    exact Nat.le_add_right _ _
  show Ok (if a ≥ b ∨ b > F.glyf.length then _ else _) _
  split
  · split
    · exact Err.noConfusion
    · exact hafter s rfl
  · rename_i hr
    have hr1 : a < b := by omega
    have hr2 : b ≤ F.glyf.length := by omega
    clear hr
    split
    · exact Err.noConfusion
    · rename_i hten
      obtain ⟨raw, hraw, -⟩ := Kern.u16_some (d := F.glyf) (i := a) (by omega)
      have hi : i16 F.glyf a = some (Spec.signed raw) := by
        simp only [i16, hraw]; rfl
      rw [hi]
      show Ok (if Spec.signed raw > 0 then _ else _) _
      split
      · rename_i hpos
        have hraw2 : (Spec.signed raw).toNat = raw := by
          unfold Spec.signed at hpos ⊢
          have := Kern.u16_some (d := F.glyf) (i := a) (by omega)
          obtain ⟨v, hv, hv2⟩ := this
          rw [hraw] at hv
          cases hv
          split at hpos <;> omega
        by_cases hsz : b - a < 12 + (Spec.signed raw).toNat * 2
        · have : simple F.glyf (top root s.stack) a (b - a) (Spec.signed raw).toNat = .error .invalidData := by
            rw [simple, if_pos hsz]
          rw [this]
          exact Err.noConfusion
        · refine (simple_ok (by omega) (by omega) fun e he => ?_).bind fun path _ => ?_
          · have hd := hF s.gid _ (bytes_of_offsets hab hr2)
            refine hd raw e ?_ hpos ?_
            · exact field_slice (by rw [field2]; exact hraw) (by omega) (by omega)
            · refine field_slice ?_ (by omega) (by omega)
              rw [field2, ← hraw2, ← Nat.add_assoc]; exact he
          · exact hafter _ rfl
      · split
        · split
          · exact Err.noConfusion
          · refine component_ok (by omega) h (by omega) ?_
            unfold work
            rw [show 16 - s.stack.length = (15 - s.stack.length) + 1 by omega, Nat.pow_succ]
            have : (b - a - 10) * (F.glyf.length + 1) ^ (15 - s.stack.length) ≤
                (F.glyf.length + 1) * (F.glyf.length + 1) ^ (15 - s.stack.length) :=
              Nat.mul_le_mul_right _ (by omega)
            rw [Nat.mul_comm (F.glyf.length + 1)] at this
            omega
        · split
          · exact Err.noConfusion
          · exact hafter s rfl

theorem loop_ok {F : Font} {root : Mat} {mag : Rat → Rat → Rat} (hF : FewPoints F) (fuel : Nat) (s : St)
    (h : SInv F s.stack) (hl : s.stack.length ≤ 15) (hf : work (F.glyf.length + 1) s.stack < fuel) :
    ∃ r, loop F root mag fuel s = some r ∧ Ok r (fun _ => True) := by
  induction fuel generalizing s with
  | zero => omega
  | succ fuel ih =>
    unfold loop
    have hr := round_ok (root := root) (mag := mag) hF h hl
    revert hr
    cases round F root mag s with
    | error e => exact fun hr => ⟨_, rfl, hr⟩
    | ok n =>
      cases n with
      | done t => exact fun _ => ⟨_, rfl, trivial⟩
      | more t =>
        rintro ⟨h1, h2, h3⟩
        exact ih t h1 h2 (by omega)

end Blend2D.Glyf
