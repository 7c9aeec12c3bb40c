import Verif.NameTable.Spec
import Verif.Unicode.Convert
import Mathlib.Data.List.DropRight
/-! Decoding of the strings. -/
namespace Blend2D.NameTable
open Blend2D.Unicode
open Blend2D.Unicode.Spec (Scalar codePoint text utf8 utf16)

theorem accepts16 {c : Nat} : Accepts .utf16 c ↔ Scalar c := by
  simp [Accepts, Scalar]

theorem utf8_len (c : Nat) : (utf8 c).length ≤ 2 * (codePoint true .utf16 c).length := by
  rw [len_cp]; simp only [utf8, utf16]
  split
  · simp; split <;> simp
  · split
    · simp; split <;> simp
    · split
      · simp
      · simp

theorem cp8_len (c : Nat) : (codePoint false .utf8 c).length = (utf8 c).length := by rw [len_cp]

theorem writeUnsafe_spec (w : Writer) (c : Nat) (hmax : c ≤ 0x10FFFF) (hs : w.stop ≤ w.mem.length)
    (h : w.ptr + (utf8 c).length ≤ w.stop) :
    writeUnsafe w (UInt32.ofNat c) =
      some { w with mem := over w.mem w.ptr (codePoint false .utf8 c), ptr := w.ptr + (utf8 c).length } := by
  have : (UInt32.ofNat c).toNat = c := by simp; omega
  unfold writeUnsafe
  rw [write8_spec w _ c this hmax hs (by omega), if_pos h]

theorem loop16_spec (src : List UInt8) (stop : Nat) (hstop : stop ≤ src.length) :
    ∀ (fuel : Nat) (w : Writer) (r : Reader) (nulls : Nat), r.ptr ≤ stop → stop - r.ptr < fuel → (stop - r.ptr) % 2 = 0 →
    w.stop = w.mem.length → w.ptr + 2 * (stop - r.ptr) ≤ w.stop →
    (∃ cs, (∀ c ∈ cs, Scalar c) ∧ win src stop r.ptr = cs.flatMap (codePoint true .utf16) ∧
      w.ptr + (text .utf8 cs).length ≤ w.stop ∧
      loop16 src stop fuel w r nulls = some (some (⟨over w.mem w.ptr (text .utf8 cs),
        w.ptr + (text .utf8 cs).length, w.stop⟩, nulls + cs.count 0))) ∨
    (loop16 src stop fuel w r nulls = some none ∧
      ∀ cs : List Nat, (∀ c ∈ cs, Scalar c) → win src stop r.ptr ≠ cs.flatMap (codePoint true .utf16)) := by
  intro fuel
  induction fuel with
  | zero => intro w r nulls _ h; omega
  | succ fuel ih =>
    intro w r nulls h1 h2 h3 h4 h5
    unfold loop16
    by_cases he : r.ptr = stop
    · left
      refine ⟨[], by simp, by simp [win, he], by simp [text]; omega, ?_⟩
      rw [if_neg (by simpa using he)]
      simp [text, over]
    · rw [if_pos he]
      rcases next_spec .utf16 (by simp) flags src stop r hstop (by omega) (by simpa [charSize] using h3) with
        ⟨c, hr, hp, hn⟩ | ⟨err, u, n, herr, hn, hno⟩
      · have hc : Scalar c := ⟨hr.1, hr.2 (by simp) rfl⟩
        simp only [next] at hn
        have hp' : codePoint true .utf16 c <+: win src stop r.ptr := hp
        obtain ⟨rest, hrest⟩ := hp'
        have hlen : (win src stop r.ptr).length = stop - r.ptr := by simp [win]; omega
        have hl : (codePoint true .utf16 c).length ≤ stop - r.ptr := by
          rw [← hlen, ← hrest]; simp
        have hev : (codePoint true .utf16 c).length % 2 = 0 := by rw [len_cp]; simp
        have hpos := cp_pos true .utf16 c
        have h8 := utf8_len c
        have hptr := okStep_ptr flags .utf16 r c
        have hsw : flags.swap = true := rfl
        rw [hsw] at hptr
        have hwin : win src stop (okStep flags .utf16 r c).2.2.2.ptr = rest := by
          rw [hptr]
          have : win src stop (r.ptr + (codePoint true .utf16 c).length) =
              (win src stop r.ptr).drop (codePoint true .utf16 c).length := by
            simp [win, List.drop_drop]
          rw [this, ← hrest]; simp
        have hw := writeUnsafe_spec w c hr.1 (by omega) (by omega)
        have hnull : (if UInt32.ofNat c = 0 then 1 else 0) = (if c = 0 then 1 else 0 : Nat) := by
          have : UInt32.ofNat c = 0 ↔ c = 0 := by
            rw [← UInt32.toNat_inj]; simp; have := hr.1; omega
          simp only [this]
        rw [hn]
        simp only [Option.bind_some, okStep_res, okStep_uc, ne_eq, not_true_eq_false, if_false, hw, hnull]
        have hov := over_length w.mem (codePoint false .utf8 c) w.ptr (by rw [cp8_len]; omega)
        rcases ih { w with mem := over w.mem w.ptr (codePoint false .utf8 c), ptr := w.ptr + (utf8 c).length }
          (okStep flags .utf16 r c).2.2.2 (nulls + if c = 0 then 1 else 0) (by omega) (by omega) (by omega)
          (by simp only [hov]; exact h4) (by simp only; omega) with ⟨cs, g1, g2, g3, g4⟩ | ⟨g1, g2⟩
        · left
          refine ⟨c :: cs, by simpa using ⟨hc, g1⟩, ?_, ?_, ?_⟩
          · rw [← hrest, ← hwin, g2]; simp
          · simp only [text_cons, List.length_append, cp8_len] at g3 ⊢; omega
          · rw [g4]
            simp only [text_cons, List.length_append, cp8_len, List.count_cons]
            have e1 := over_over w.mem (codePoint false .utf8 c) (text .utf8 cs) w.ptr
              (by rw [cp8_len]; simp only at g3; omega)
            rw [cp8_len] at e1
            have e2 : nulls + (if c = 0 then 1 else 0) + List.count 0 cs =
                nulls + (List.count 0 cs + if (c == 0) = true then 1 else 0) := by
              simp only [beq_iff_eq]; omega
            rw [e1, e2, Nat.add_assoc]
        · right
          refine ⟨g1, ?_⟩
          intro cs hcs h
          match cs, hcs, h with
          | [], _, h => rw [← hrest] at h; simp at h; simp [h] at hpos
          | c' :: cs, hcs, h =>
            have hc' := hcs c' (by simp)
            have := next_complete .utf16 (by simp) flags src stop r hstop c' (accepts16.2 hc')
              (by rw [h]; exact ⟨_, by rw [List.flatMap_cons]; rfl⟩)
            simp only [next] at this
            rw [hn] at this
            have e := congrArg (fun x : Option Step => x.map (·.2.1)) this
            simp only [Option.map_some, okStep_uc, Option.some.injEq] at e
            have e : c = c' := by
              rw [← UInt32.toNat_inj] at e; simp at e; have := hr.1; have := hc'.1; omega
            subst e
            rw [← hrest, List.flatMap_cons] at h
            have h := List.append_cancel_left h
            exact g2 cs (fun x hx => hcs x (by simp [hx])) (by rw [hwin, h])
      · right
        simp only [next] at hn
        rw [hn]
        refine ⟨by rcases herr with rfl | rfl <;> simp, ?_⟩
        intro cs hcs h
        match cs, hcs, h with
        | [], _, h =>
          have hlen : (win src stop r.ptr).length = stop - r.ptr := by simp [win]; omega
          rw [h] at hlen; simp at hlen; omega
        | c' :: cs, hcs, h =>
          exact hno c' (accepts16.2 (hcs c' (by simp))) (by
            rw [h]; exact ⟨_, by rw [List.flatMap_cons]; rfl⟩)

/-- The last byte of the UTF-8 form is zero only for the null character. -/
theorem last_cp {c : Nat} (hc : c ≤ 0x10FFFF) (h0 : c ≠ 0) :
    ∃ l b, codePoint false .utf8 c = l ++ [b] ∧ b ≠ 0 := by
  have key : ∀ n : Nat, n < 256 → n ≠ 0 → UInt8.ofNat n ≠ 0 := by
    intro n h1 h2 h
    rw [← UInt8.toNat_inj] at h; simp at h; omega
  simp only [codePoint, utf8]
  split
  · exact ⟨[], _, rfl, key _ (by omega) h0⟩
  · split
    · exact ⟨[_], _, rfl, key _ (by omega) (by omega)⟩
    · split
      · exact ⟨[_, _], _, rfl, key _ (by omega) (by omega)⟩
      · exact ⟨[_, _, _], _, rfl, key _ (by omega) (by omega)⟩

/-- Characters without null characters at their end. -/
def strip (cs : List Nat) : List Nat := cs.rdropWhile (· = 0)

theorem trim_spec (cs : List Nat) : ∀ (mem : List UInt8) (n : Nat), (∀ c ∈ cs, c ≤ 0x10FFFF) →
    text .utf8 cs <+: mem → n = cs.count 0 → n < 2 ^ 64 →
    trim mem (text .utf8 cs).length n = some ((text .utf8 (strip cs)).length, (strip cs).count 0) := by
  induction cs using List.reverseRecOn with
  | nil => intro mem n _ _ hn _; simp [text, trim, strip, hn]
  | append_singleton l c ih =>
    intro mem n hc hp hn hlt
    have ht : text .utf8 (l ++ [c]) = text .utf8 l ++ codePoint false .utf8 c := by simp [text]
    by_cases h0 : c = 0
    · subst h0
      have h1 : codePoint false .utf8 0 = [0] := by decide
      rw [h1] at ht
      have hs : strip (l ++ [0]) = strip l := by simp [strip]
      obtain ⟨m, hm⟩ := hp
      have hg : mem[(text .utf8 l).length]? = some 0 := by rw [← hm, ht]; simp
      rw [ht, List.length_append, List.length_singleton, trim, hg, hs]
      simp only [Option.bind_some, if_true]
      have hcnt : n = l.count 0 + 1 := by rw [hn]; simp
      have e : (n + (2 ^ 64 - 1)) % 2 ^ 64 = l.count 0 := by omega
      rw [e]
      exact ih mem _ (fun x hx => hc x (by simp [hx])) ⟨[0] ++ m, by rw [← hm, ht]; simp⟩ rfl (by omega)
    · obtain ⟨p, b, hb, hb0⟩ := last_cp (hc c (by simp)) h0
      have hs : strip (l ++ [c]) = l ++ [c] := by
        unfold strip; rw [List.rdropWhile_concat_neg]; simpa using h0
      rw [hs, ht, hb]
      obtain ⟨m, hm⟩ := hp
      have hg : mem[(text .utf8 l ++ p).length]? = some b := by
        rw [← hm, ht, hb]; simp [List.getElem?_append]
      have hl : (text .utf8 l ++ (p ++ [b])).length = (text .utf8 l ++ p).length + 1 := by simp; omega
      rw [hl, trim, hg]
      simp [hb0, hn]

/-- Stripping removes all the null characters at the end, and the rest either has one or is what the text is. -/
theorem strip_iff (cs ds : List Nat) : (strip cs = ds ∧ 0 ∉ ds) ↔ (0 ∉ ds ∧ ∃ k, cs = ds ++ List.replicate k 0) := by
  constructor
  · rintro ⟨rfl, h⟩
    refine ⟨h, ?_⟩
    clear h
    induction cs using List.reverseRecOn with
    | nil => exact ⟨0, rfl⟩
    | append_singleton l c ih =>
      by_cases h0 : c = 0
      · subst h0
        obtain ⟨k, hk⟩ := ih
        refine ⟨k + 1, ?_⟩
        have hs : strip (l ++ [0]) = strip l := by simp [strip]
        rw [hs, List.replicate_succ', ← List.append_assoc, ← hk]
      · have hs : strip (l ++ [c]) = l ++ [c] := by
          unfold strip; rw [List.rdropWhile_concat_neg]; simpa using h0
        exact ⟨0, by rw [hs]; simp⟩
  · rintro ⟨h, k, rfl⟩
    refine ⟨?_, h⟩
    induction k with
    | zero =>
      simp only [List.replicate_zero, List.append_nil, strip]
      rw [List.rdropWhile_eq_self_iff]
      intro hne hl
      exact h (by have := List.getLast_mem hne; simp at hl; rwa [hl] at this)
    | succ k ih =>
      rw [List.replicate_succ', ← List.append_assoc]
      have : strip ((ds ++ List.replicate k 0) ++ [0]) = strip (ds ++ List.replicate k 0) := by
        unfold strip; rw [List.rdropWhile_concat_pos]; rfl
      rw [this, ih]

theorem strip_prefix (cs : List Nat) : strip cs <+: cs := List.rdropWhile_prefix _ _

theorem text_prefix {a b : List Nat} (h : a <+: b) : text .utf8 a <+: text .utf8 b := by
  obtain ⟨c, rfl⟩ := h; exact ⟨text .utf8 c, by simp [text]⟩

theorem finish_spec (cs : List Nat) (mem : List UInt8) (hc : ∀ c ∈ cs, c ≤ 0x10FFFF)
    (hp : text .utf8 cs <+: mem) (hn : cs.count 0 < 2 ^ 64) :
    finish mem (text .utf8 cs).length (cs.count 0) =
      some (if 0 ∈ strip cs then none else some (text .utf8 (strip cs))) := by
  unfold finish
  rw [trim_spec cs mem _ hc hp rfl hn]
  simp only [Option.bind_some]
  by_cases h : 0 ∈ strip cs
  · rw [if_pos (by have := List.count_pos_iff.2 h; omega), if_pos h]
  · rw [if_neg (by rw [List.count_eq_zero_of_not_mem h]; simp), if_neg h]
    obtain ⟨m, hm⟩ := (text_prefix (strip_prefix cs)).trans hp
    rw [← hm]; simp

theorem over_prefix (mem bs : List UInt8) : bs <+: over mem 0 bs := ⟨_, by simp [over]; rfl⟩

theorem inj16 : ∀ (a b : List Nat), (∀ c ∈ a, Scalar c) → (∀ c ∈ b, Scalar c) →
    a.flatMap (codePoint true .utf16) = b.flatMap (codePoint true .utf16) → a = b := by
  intro a
  induction a with
  | nil =>
    intro b _ _ h
    match b, h with
    | [], _ => rfl
    | c :: b, h =>
      have := cp_pos true .utf16 c
      simp at h
      rw [h.1] at this; simp at this
  | cons c a ih =>
    intro b ha hb h
    match b, hb, h with
    | [], _, h =>
      have := cp_pos true .utf16 c
      simp at h
      rw [h.1] at this; simp at this
    | c' :: b, hb, h =>
      have hw : ∀ l : List UInt8, win l l.length 0 = l := by intro l; simp [win]
      generalize hs : (c :: a).flatMap (codePoint true .utf16) = s at h
      have hc := ha c (by simp)
      have hc' := hb c' (by simp)
      have e1 := next_complete .utf16 (by simp) flags s s.length { ptr := 0 } le_rfl c (accepts16.2 hc)
        (by rw [hw, ← hs, List.flatMap_cons]; exact ⟨_, rfl⟩)
      have e2 := next_complete .utf16 (by simp) flags s s.length { ptr := 0 } le_rfl c' (accepts16.2 hc')
        (by rw [hw, h, List.flatMap_cons]; exact ⟨_, rfl⟩)
      rw [e1] at e2
      have e := congrArg (fun x : Option Step => x.map (·.2.1)) e2
      simp only [Option.map_some, okStep_uc, Option.some.injEq] at e
      have e : c = c' := by
        rw [← UInt32.toNat_inj] at e; simp at e; have := hc.1; have := hc'.1; omega
      subst e
      rw [← hs, List.flatMap_cons, List.flatMap_cons] at h
      rw [ih b (fun x hx => ha x (by simp [hx])) (fun x hx => hb x (by simp [hx])) (List.append_cancel_left h)]

/-- The conversion never writes outside of its buffer, and it gives the text of the string exactly if there is one. -/
theorem convertInto_spec (buf : List UInt8) (platform : Nat) (src : List UInt8) (hb : buf.length = src.length * 2)
    (hl : src.length < 65536) :
    ∃ r, convertInto buf (isUtf16 platform) src = some r ∧ ∀ t, r = some t ↔ Spec.IsText platform src t := by
  have key : ∀ cs : List Nat, (∀ c ∈ cs, c ≤ 0x10FFFF) → (∀ es, Spec.Decodes platform src es ↔ es = cs) →
      ∀ t, (if 0 ∈ strip cs then none else some (text .utf8 (strip cs))) = some t ↔ Spec.IsText platform src t := by
    intro cs _ hcs t
    unfold Spec.IsText
    simp only [hcs]
    constructor
    · split
      · intro h; cases h
      · rename_i h0
        intro h
        obtain ⟨_, k, hk⟩ := (strip_iff cs _).1 ⟨rfl, h0⟩
        exact ⟨_, k, hk.symm, h0, by simpa using h.symm⟩
    · rintro ⟨ds, k, h1, h2, rfl⟩
      obtain ⟨h3, _⟩ := (strip_iff cs ds).2 ⟨h2, k, h1.symm⟩
      rw [h3, if_neg h2]
  unfold convertInto
  by_cases hp : isUtf16 platform = false
  · rw [if_pos hp]
    have hp' : ¬ (platform = 0 ∨ platform = 3) := by simpa [isUtf16] using hp
    rw [latin1ToUtf8Unsafe_spec src buf 0 (by omega)]
    simp only [Option.bind_some, Nat.zero_add]
    have hc : ∀ c ∈ src.map UInt8.toNat, c ≤ 0x10FFFF := by
      intro c hc
      obtain ⟨b, _, rfl⟩ := List.mem_map.1 hc
      have := b.toNat_lt; omega
    have hn : src.countP (· = 0) = (src.map UInt8.toNat).count 0 := by
      rw [List.count, List.countP_map]
      apply List.countP_congr
      intro b _
      simp [← UInt8.toNat_inj]
    have hlt : (src.map UInt8.toNat).count 0 < 2 ^ 64 := by
      have := List.count_le_length (a := 0) (l := src.map UInt8.toNat); simp at this; omega
    rw [hn, finish_spec _ _ hc (over_prefix _ _) hlt]
    refine ⟨_, rfl, key _ hc ?_⟩
    intro es
    unfold Spec.Decodes
    rw [if_neg hp']
  · rw [if_neg hp]
    have hp' : platform = 0 ∨ platform = 3 := by
      simp [isUtf16] at hp; omega
    have hw : win src (src.length / 2 * 2) 0 = src.take (src.length / 2 * 2) := win_zero _ _
    rcases loop16_spec src (src.length / 2 * 2) (by omega) (src.length + 1) ⟨buf, 0, buf.length⟩ { ptr := 0 } 0
      (by simp) (by simp; omega) (by simp) rfl (by simp; omega) with ⟨cs, g1, g2, g3, g4⟩ | ⟨g1, g2⟩
    · rw [g4]
      simp only [Option.bind_some, Nat.zero_add] at g3 ⊢
      have hc : ∀ c ∈ cs, c ≤ 0x10FFFF := fun c hc => (g1 c hc).1
      have hlen : cs.length ≤ (cs.flatMap (codePoint true .utf16)).length := by
        clear g1 g2 g3 g4 hc
        induction cs with
        | nil => simp
        | cons c cs ih =>
          have := cp_pos true .utf16 c
          rw [List.flatMap_cons, List.length_append, List.length_cons]; omega
      rw [← g2] at hlen
      have hlt : cs.count 0 < 2 ^ 64 := by
        have := List.count_le_length (a := 0) (l := cs)
        simp [win] at hlen
        omega
      rw [finish_spec _ _ hc (over_prefix _ _) hlt]
      refine ⟨_, rfl, key _ hc ?_⟩
      intro es
      unfold Spec.Decodes
      rw [if_pos hp']
      simp only [] at g2
      rw [hw] at g2
      constructor
      · rintro ⟨e1, e2⟩
        rw [g2] at e2
        exact (inj16 cs es g1 e1 e2).symm
      · rintro rfl; exact ⟨g1, g2⟩
    · rw [g1]
      refine ⟨none, rfl, fun t => ⟨fun h => (by cases h), ?_⟩⟩
      rintro ⟨ds, k, h1, h2, rfl⟩
      unfold Spec.Decodes at h1
      rw [if_pos hp'] at h1
      simp only [hw] at g2
      exact absurd h1.2 (g2 _ h1.1)

theorem convert_spec (platform : Nat) (src : List UInt8) (hl : src.length < 65536) :
    ∃ r, convert (isUtf16 platform) src = some r ∧ ∀ t, r = some t ↔ Spec.IsText platform src t :=
  convertInto_spec _ platform src (by simp) hl

end Blend2D.NameTable
