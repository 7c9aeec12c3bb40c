import Verif.Kern.Tables
import Mathlib.Data.List.GetD
/-! # C54: kerning -/

namespace Blend2D.Kern
open Algo Algo.Spec Spec

/-! ## Headers -/

theorem cov_lt (s : Sub) : cov s < 16 := by
  unfold cov bit
  split <;> split <;> split <;> split <;> omega

theorem headWin_spec {subs a b : List Sub} {s : Sub} {pre d : Data} (hs : subs = a ++ s :: b) (hd : d = pre ++ subs.flatMap (enc false))
    (V : s.Valid) (hl : b ≠ [] → s.pairs.length ≤ 10920) :
    head false d subs.length (0 + a.length) (pre ++ a.flatMap (enc false)).length = some ⟨headSize false + s.body.length, 0, cov s⟩ := by
  show headWin d subs.length (0 + a.length) (pre ++ a.flatMap (enc false)).length = _
  have e0 : d = (pre ++ a.flatMap (enc false)) ++ (enc false s ++ b.flatMap (enc false)) := by
    rw [hd, hs, List.flatMap_append, List.flatMap_cons, List.append_assoc]
  have hb := body_length V
  have hlen : d.length = (pre ++ a.flatMap (enc false)).length + ((6 + s.body.length) + (b.flatMap (enc false)).length) := by
    have h6 : headSize false = 6 := rfl
    rw [e0]
    simp only [List.length_append, enc_length]
    omega
  have hsl : subs.length = a.length + 1 + b.length := by rw [hs]; simp; omega
  generalize pre ++ a.flatMap (enc false) = p at e0 hlen ⊢
  have r4 : u8 d (p.length + 4) = some 0 := by
    rw [e0, u8_append]
    simp [u8, enc, Sub.win, be16, be8]
  have r5 : u8 d (p.length + 5) = some (cov s) := by
    rw [e0, u8_append]
    have := cov_lt s
    unfold cov at this
    simp [u8, enc, Sub.win, be16, be8, cov]
    omega
  have r2 : u16 d (p.length + 2) = some ((6 + s.body.length) % 65536) := by
    rw [e0, u16_append]
    have := u16_append (be16 0) (be16 ((6 + s.body.length) % 65536) ++ (be8 0 ++
      (be8 (bit s.horizontal 1 + bit s.minimum 2 + bit s.cross 4 + bit s.replaces 8) ++ (s.body ++ b.flatMap (enc false))))) 0
    rw [u16_be16, Nat.mod_mod] at this
    rw [← this]
    congr 1
  unfold headWin
  rw [r4, r2, r5]
  simp only [Option.bind_eq_bind, Option.bind_some, Option.some.injEq]
  have c15 : cov s &&& 15 = cov s := by rw [and15]; exact Nat.mod_eq_of_lt (cov_lt s)
  rw [c15]
  congr 1
  show _ = 6 + s.body.length
  cases b with
  | nil =>
    simp only [List.flatMap_nil, List.length_nil, Nat.add_zero] at hlen hsl
    by_cases h1 : (6 + s.body.length) % 65536 = d.length ∧ subs.length = 1
    · rw [if_pos h1, if_neg (by omega)]; omega
    · rw [if_neg h1]
      by_cases h2 : (6 + s.body.length) % 65536 ≠ d.length - p.length ∧ 0 + a.length = subs.length - 1
      · rw [if_pos h2]; omega
      · rw [if_neg h2]; omega
  | cons q b =>
    have := hl (by simp)
    simp only [List.length_cons] at hsl
    rw [if_neg (by omega), if_neg (by omega)]
    omega

theorem headMac_spec {subs a b : List Sub} {s : Sub} {pre d : Data} (hs : subs = a ++ s :: b) (hd : d = pre ++ subs.flatMap (enc true))
    (V : s.Valid) (hm : s.minimum = false ∧ s.replaces = false) :
    head true d subs.length (0 + a.length) (pre ++ a.flatMap (enc true)).length = some ⟨headSize true + s.body.length, 0, cov s⟩ := by
  show headMac d (pre ++ a.flatMap (enc true)).length = _
  have e0 : d = (pre ++ a.flatMap (enc true)) ++ (enc true s ++ b.flatMap (enc true)) := by
    rw [hd, hs, List.flatMap_append, List.flatMap_cons, List.append_assoc]
  have hb := body_length V
  have hc := V.count
  generalize pre ++ a.flatMap (enc true) = p at e0 ⊢
  have r5 : u8 d (p.length + 5) = some 0 := by
    rw [e0, u8_append]
    simp [u8, enc, Sub.mac, be32, be16, be8]
  have r4 : u8 d (p.length + 4) = some (bit (!s.horizontal) 0x80 + bit s.cross 0x40) := by
    rw [e0, u8_append]
    simp [u8, enc, Sub.mac, be32, be16, be8, bit]
    split <;> split <;> omega
  have r0 : u32 d p.length = some (8 + s.body.length) := by
    have := u32_append p (enc true s ++ b.flatMap (enc true)) 0
    rw [Nat.add_zero] at this
    rw [e0, this]
    unfold enc Sub.mac
    simp only [if_true, List.append_assoc]
    rw [u32_be32, Nat.mod_eq_of_lt (by omega)]
  unfold headMac
  rw [r5, r0, r4]
  simp only [Option.bind_eq_bind, Option.bind_some, Option.some.injEq]
  congr 1
  unfold cov bit
  rw [hm.1, hm.2]
  cases s.horizontal <;> cases s.cross <;> rfl

/-! ## Runs -/

/-- A placement that has not been touched. -/
def Place.plain (p : Place) : Prop := p.ox = 0 ∧ p.oy = 0

def Place.zero : Place := ⟨0, 0, 0, 0⟩

theorem apply_spec {d : Data} {ks : List Group} (U : ∀ k ∈ ks, Usable d k) (glyphs : List Nat) (places : List Place)
    (hl : places.length = glyphs.length) (hg : ∀ g ∈ glyphs, g < 65536) (hp : ∀ p ∈ places, p.plain) :
    ∃ out, apply d ks glyphs places = some out ∧ out.length = places.length ∧ ∀ i < places.length,
      out.getD i Place.zero = { places.getD i Place.zero with
        ax := (places.getD i Place.zero).ax +
          if i + 1 < glyphs.length then ks.foldl (fun x g => g.step d (glyphs.getD i 0 * 65536 + glyphs.getD (i + 1) 0) x) 0 else 0 } := by
  match glyphs, places, hl with
  | [], [], _ => exact ⟨[], rfl, rfl, fun i hi => by simp at hi⟩
  | [g], [p], _ =>
    refine ⟨[p], rfl, rfl, fun i hi => ?_⟩
    rw [if_neg (by simp)]
    simp
  | g :: h :: gs, p :: ps, hl =>
    simp only [List.length_cons] at hl
    obtain ⟨c, c1, c2⟩ := applyGroups_spec (d := d) g (h :: gs) (hg g List.mem_cons_self) (fun x hx => hg x (List.mem_cons_of_mem _ hx)) ks ps U
      (by simp only [List.length_cons]; omega)
    have z : Zero ps := fun q hq => (hp q (List.mem_cons_of_mem _ hq)).1
    unfold apply
    simp only
    rw [c1]
    simp only
    generalize hF : (fun k x => ks.foldl (fun x g => g.step d k x) x) = F at c1 c2
    have hF' : ∀ k x, ks.foldl (fun x g => g.step d k x) x = F k x := by intro k x; rw [← hF]
    have len : (pass F g (h :: gs) ps).length = ps.length := pass_length _ _ _ _
    have pg := pass_getD F Place.zero (h :: gs) g ps
    -- what finishing gives
    have fin : ∀ i, i ≤ ps.length → (finish p (pass F g (h :: gs) ps)).getD i Place.zero =
        { (p :: ps).getD i Place.zero with
          ax := ((p :: ps).getD i Place.zero).ax +
            if i + 1 < (g :: h :: gs).length then F ((g :: h :: gs).getD i 0 * 65536 + (g :: h :: gs).getD (i + 1) 0) 0 else 0 } := by
      intro i hi
      rw [finish_getD Place.zero _ _ _ (by omega), len]
      have hpi : ((p :: ps).getD i Place.zero).plain := by
        rw [List.getD_eq_getElem _ _ (by simp; omega)]
        exact hp _ (List.getElem_mem _)
      have e1 : ((p :: pass F g (h :: gs) ps).getD i Place.zero).ax = ((p :: ps).getD i Place.zero).ax ∧
          ((p :: pass F g (h :: gs) ps).getD i Place.zero).ay = ((p :: ps).getD i Place.zero).ay := by
        cases i with
        | zero => exact ⟨rfl, rfl⟩
        | succ i =>
          rw [List.getD_cons_succ, List.getD_cons_succ, pg i (by simp only [List.length_cons]; omega) (by omega)]
          exact ⟨rfl, rfl⟩
      have hp0 := hp p List.mem_cons_self
      have e2 : (if i = 0 then p.ox else 0) = 0 := by split; exact hp0.1; rfl
      have e3 : (if i = 0 then p.oy else 0) = 0 := by split; exact hp0.2; rfl
      rw [e1.1, e1.2, e2, e3]
      by_cases hlt : i < ps.length
      · rw [if_pos hlt, if_pos hlt, if_pos (by simp only [List.length_cons]; omega), pg i (by simp only [List.length_cons]; omega) hlt]
        have hq : (ps.getD i Place.zero).plain := by
          rw [List.getD_eq_getElem _ _ hlt]
          exact hp _ (List.mem_cons_of_mem _ (List.getElem_mem _))
        simp only
        rw [hq.1, hq.2, List.getD_cons_succ, Int.add_zero]
        exact congr (congr (congr (congrArg _ hpi.1.symm) hpi.2.symm) rfl) rfl
      · rw [if_neg hlt, if_neg hlt, if_neg (by simp only [List.length_cons]; omega), Int.add_zero, Int.add_zero]
        exact congr (congr (congr (congrArg _ hpi.1.symm) hpi.2.symm) rfl) rfl
    cases c with
    | true =>
      rw [if_pos rfl]
      refine ⟨_, rfl, ?_, fun i hi => ?_⟩
      · rw [finish_length, len]; rfl
      · rw [hF', fin i (by simp only [List.length_cons] at hi; omega)]
    | false =>
      rw [if_neg (by simp)]
      have zz := c2 rfl z
      refine ⟨_, rfl, ?_, fun i hi => ?_⟩
      · simp only [List.length_cons, len]
      · rw [hF', ← fin i (by simp only [List.length_cons] at hi; omega)]
        simp only [List.length_cons] at hi
        rw [finish_getD Place.zero _ _ _ (by omega), len]
        have e4 : (if i < ps.length then ((pass F g (h :: gs) ps).getD i Place.zero).ox else 0) = 0 := by
          split
          · rename_i hlt
            rw [List.getD_eq_getElem _ _ (by omega)]
            exact zz _ (List.getElem_mem _)
          · rfl
        have e5 : (if i < ps.length then ((pass F g (h :: gs) ps).getD i Place.zero).oy else 0) = 0 := by
          split
          · rename_i hlt
            rw [pg i (by simp only [List.length_cons]; omega) hlt]
            rw [List.getD_eq_getElem _ _ hlt]
            exact (hp _ (List.mem_cons_of_mem _ (List.getElem_mem _))).2
          · rfl
        rw [e4, e5, Int.add_zero, Int.add_zero]
        cases i with
        | zero => rfl
        | succ i =>
          rw [List.getD_cons_succ, pg i (by simp only [List.length_cons]; omega) (by omega)]
          have e6 := zz ((pass F g (h :: gs) ps)[i]'(by omega)) (List.getElem_mem _)
          have e7 := pg i (by simp only [List.length_cons]; omega) (by omega)
          rw [List.getD_eq_getElem _ _ (by omega)] at e7
          rw [e7] at e6
          simp only at e6
          have e8 : (ps.getD i Place.zero).oy = 0 := by
            rw [List.getD_eq_getElem _ _ (by omega)]
            exact (hp _ (List.mem_cons_of_mem _ (List.getElem_mem _))).2
          rw [if_neg (by omega), if_neg (by omega), e6]
          simp only
          rw [e8]

/-! ## Tables -/

/-- The text after kerning. -/
def Kerned (subs : List Sub) (glyphs : List Nat) (places out : List Place) : Prop :=
  out.length = places.length ∧ ∀ i < places.length, out.getD i Place.zero = { places.getD i Place.zero with
    ax := (places.getD i Place.zero).ax + if i + 1 < glyphs.length then kerning subs (glyphs.getD i 0) (glyphs.getD (i + 1) 0) else 0 }

theorem kern_spec {d : Data} {mac : Bool} {subs : List Sub} {pre : Data} (hd : d = pre ++ subs.flatMap (enc mac))
    (hst : start d = some (if subs.length = 0 then none else some (mac, subs.length, pre.length)))
    (V : ∀ s ∈ subs, s.Valid) (hc : ∀ s ∈ subs, s.cross = false)
    (H : ∀ a s b, subs = a ++ s :: b → head mac d subs.length (0 + a.length) (pre ++ a.flatMap (enc mac)).length =
      some ⟨headSize mac + s.body.length, 0, cov s⟩)
    (glyphs : List Nat) (places : List Place)
    (hl : places.length = glyphs.length) (hg : ∀ g ∈ glyphs, g < 65536) (hp : ∀ p ∈ places, p.plain) :
    ∃ out, kern d glyphs places = some out ∧ Kerned subs glyphs places out := by
  have hk : ∀ l r, kerning subs l r = (subs.filter (·.horizontal)).foldl (fun k s => s.adjust l r k) 0 := by
    intro l r
    unfold kerning
    congr 1
    apply List.filter_congr
    intro s hs
    rw [hc s hs]
    simp
  have same : (∀ l r, l < 65536 → r < 65536 → kerning subs l r = 0) → Kerned subs glyphs places places := by
    intro h0
    refine ⟨rfl, fun i hi => ?_⟩
    have : (if i + 1 < glyphs.length then kerning subs (glyphs.getD i 0) (glyphs.getD (i + 1) 0) else 0) = 0 := by
      split
      · apply h0
        · rw [List.getD_eq_getElem _ _ (by omega)]; exact hg _ (List.getElem_mem _)
        · rw [List.getD_eq_getElem _ _ (by omega)]; exact hg _ (List.getElem_mem _)
      · rfl
    rw [this, Int.add_zero]
  unfold kern load
  rw [hst]
  by_cases hn : subs = []
  · subst hn
    simp only [List.length_nil, if_true]
    exact ⟨places, rfl, same (fun l r _ _ => rfl)⟩
  · have hn' : subs.length ≠ 0 := by simpa using hn
    rw [if_neg hn']
    simp only
    have hfuel : subs.length ≤ d.length + 1 := by
      have : ∀ ss : List Sub, ss.length ≤ (ss.flatMap (enc mac)).length := by
        intro ss
        induction ss with
        | nil => simp
        | cons s ss ih =>
          rw [List.flatMap_cons, List.length_append, List.length_cons, enc_length]
          have : 1 ≤ headSize mac := by unfold headSize; split <;> omega
          omega
      have := this subs
      rw [hd, List.length_append]; omega
    obtain ⟨gs, g1, g2, g3⟩ := loadLoop_spec mac d subs.length subs (d.length + 1) 0 pre [] hd hn hfuel (by omega) V H
    rw [g1]
    simp only
    have U : ∀ k ∈ gs, Usable d k := by
      intro k hk
      rcases g2 k hk with h | h
      · simp at h
      · exact h
    by_cases he : gs = []
    · rw [if_pos he]
      refine ⟨places, rfl, same (fun l r h1 h2 => ?_)⟩
      have := g3 l r 0 h1 h2
      rw [he] at this
      rw [hk l r]
      exact this.symm
    · rw [if_neg he]
      obtain ⟨out, o1, o2, o3⟩ := apply_spec U glyphs places hl hg hp
      refine ⟨out, o1, o2, fun i hi => ?_⟩
      rw [o3 i hi]
      congr 2
      split
      · rw [g3 _ _ _ _ _, hk]
        · rfl
        · rw [List.getD_eq_getElem _ _ (by omega)]; exact hg _ (List.getElem_mem _)
        · rw [List.getD_eq_getElem _ _ (by omega)]; exact hg _ (List.getElem_mem _)
      · rfl

/-- **C54**: with a table of Windows that consists of pairs, sorted or not, the distance of every two glyphs of a text changes by the
kerning of the table, and nothing else does.

Partial: without values across the line, see `C54_cross_counterexample`, and without arrays of classes, see
`C54_format2_counterexample`. -/
theorem C54_windows_partial (subs : List Sub) (V : ∀ s ∈ subs, s.Valid) (hc : ∀ s ∈ subs, s.cross = false) (hn : subs.length < 65536)
    (hs : ∀ s ∈ subs.dropLast, s.pairs.length ≤ 10920) (glyphs : List Nat) (places : List Place)
    (hl : places.length = glyphs.length) (hg : ∀ g ∈ glyphs, g < 65536) (hp : ∀ p ∈ places, p.plain) :
    ∃ out, kern (win subs) glyphs places = some out ∧ Kerned subs glyphs places out := by
  have hd : win subs = (be16 0 ++ be16 subs.length) ++ subs.flatMap (enc false) := rfl
  refine kern_spec hd ?_ V hc ?_ glyphs places hl hg hp
  · unfold start
    rw [if_neg (by rw [hd]; simp [be16])]
    have r0 : u16 (win subs) 0 = some 0 := by
      unfold win
      rw [List.append_assoc, u16_be16]
    have r2 : u16 (win subs) 2 = some subs.length := by
      have := u16_append (be16 0) (be16 subs.length ++ subs.flatMap Sub.win) 0
      rw [u16_be16, Nat.mod_eq_of_lt hn] at this
      unfold win
      rw [List.append_assoc]
      exact this
    rw [r0]
    simp only [Option.bind_eq_bind, Option.bind_some, if_true]
    rw [r2]
    rfl
  · intro a s b e
    refine headWin_spec e hd (V s (by rw [e]; simp)) (fun hb => hs s ?_)
    rw [e]
    cases b with
    | nil => exact (hb rfl).elim
    | cons q b =>
      rw [List.dropLast_append_of_ne_nil (by simp)]
      simp

/-- **C54**: the same for tables of Apple.

Partial: as for Windows. -/
theorem C54_apple_partial (subs : List Sub) (V : ∀ s ∈ subs, s.Valid) (hc : ∀ s ∈ subs, s.cross = false) (hn : subs.length < 2 ^ 32)
    (hm : ∀ s ∈ subs, s.minimum = false ∧ s.replaces = false) (glyphs : List Nat) (places : List Place)
    (hl : places.length = glyphs.length) (hg : ∀ g ∈ glyphs, g < 65536) (hp : ∀ p ∈ places, p.plain) :
    ∃ out, kern (mac subs) glyphs places = some out ∧ Kerned subs glyphs places out := by
  have hd : mac subs = (be32 0x10000 ++ be32 subs.length) ++ subs.flatMap (enc true) := rfl
  refine kern_spec hd ?_ V hc ?_ glyphs places hl hg hp
  · unfold start
    rw [if_neg (by rw [hd]; simp [be32, be16])]
    have r0 : u16 (mac subs) 0 = some 1 := by
      unfold mac be32
      rw [List.append_assoc, List.append_assoc, u16_be16]
    have r2 : u16 (mac subs) 2 = some 0 := by
      have := u16_append (be16 1) (be16 0 ++ (be32 subs.length ++ subs.flatMap Sub.mac)) 0
      rw [u16_be16] at this
      exact this
    have r4 : u32 (mac subs) 4 = some subs.length := by
      have := u32_append (be32 0x10000) (be32 subs.length ++ subs.flatMap Sub.mac) 0
      rw [u32_be32, Nat.mod_eq_of_lt hn] at this
      unfold mac
      rw [List.append_assoc]
      exact this
    have h8 : ¬ ((0 : Nat) ≠ 0 ∨ (mac subs).length < 8) := by
      rw [hd]; simp [be32, be16]
    rw [r0]
    simp only [Option.bind_eq_bind, Option.bind_some, if_true]
    rw [if_neg (by omega), r2]
    simp only [Option.bind_some]
    rw [if_neg h8, r4]
    rfl
  · intro a s b e
    have hs : s ∈ subs := by rw [e]; simp
    exact headMac_spec e hd (V s hs) (hm s hs)

end Blend2D.Kern
