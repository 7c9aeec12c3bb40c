import Verif.Str.Ops
/-! # The operations of `BLString` keep the relation (assigning, appending, inserting, removing) -/
namespace Blend2D.Str
open Cow
open Blend2D.Arr (Result Src ModifyOp rd wr move copy masked uaddSat expand implMaxSize implMaxSize_eq le_expand expand_le)

theorem uaddSat_small (a b : Nat) (h : uaddSat a b ≤ 2 ^ 63) : uaddSat a b = a + b := by
  unfold uaddSat at *; omega

theorem ok_inplace {w : Wld} {i : Nat} {l : Cells} (V : View w i l) (d : Data) (x : Cells) (hs : d.size = x.length)
    (hl : d.cells.length = V.u.cells.length) (hz : d.cells[x.length]? = some (some 0))
    (h14 : isSso V.v = true → d.cells[14]? = some (some (ssoCode x.length))) (hx : x.length ≤ V.u.cap)
    (hval : ∀ k, k < x.length → d.cells[k]? = x[k]?) : Ok (isSso V.v) d x := by
  refine ⟨hs, ⟨hz, ?_⟩, hval⟩
  have hlen := V.len
  by_cases hc : isSso V.v = true
  · have := V.sso hc
    rw [hc]
    simp only [if_true]
    exact ⟨by omega, by omega, h14 hc⟩
  · simp only [Bool.not_eq_true] at hc
    rw [hc]
    simp only [Bool.false_eq_true, if_false]
    omega

theorem setSize_get (v : Core Sso) (d : Data) (n k : Nat) (h : isSso v = true → d.cells.length = 15) :
    (setSize v d n).cells[k]? = if isSso v = true ∧ k = 14 then some (some (ssoCode n)) else d.cells[k]? := by
  cases v with
  | sso s =>
    have h := h rfl
    simp only [setSize, setSsoSize, isSso, true_and]
    by_cases hk : k = 14
    · subst hk; rw [List.getElem?_set_self (by omega), if_pos rfl]
    · rw [List.getElem?_set_ne (fun hc => hk hc.symm), if_neg hk]
  | dyn a => simp [setSize, isSso]

theorem setSize_len (v : Core Sso) (d : Data) (n : Nat) : (setSize v d n).cells.length = d.cells.length := by
  cases v <;> simp [setSize, setSsoSize]

theorem setSize_size (v : Core Sso) (d : Data) (n : Nat) : (setSize v d n).size = n := by
  cases v <;> simp [setSize]

/-- The size is stored after the characters and the NUL. -/
theorem ok_setSize {w : Wld} {i : Nat} {l : Cells} (V : View w i l) (c : Cells) (x : Cells)
    (hl : c.length = V.u.cells.length) (hz : c[x.length]? = some (some 0)) (hx : x.length ≤ V.u.cap)
    (hval : ∀ k, k < x.length → c[k]? = x[k]?) : Ok (isSso V.v) (setSize V.v ⟨l.length, c⟩ x.length) x := by
  have hlen := V.len
  have h15 : isSso V.v = true → (⟨l.length, c⟩ : Data).cells.length = 15 := fun hc => by
    have := V.sso hc; simp only; omega
  have g := fun k => setSize_get V.v ⟨l.length, c⟩ x.length k h15
  refine ok_inplace V _ x (setSize_size ..) (by rw [setSize_len]; exact hl) ?_ ?_ hx ?_
  · rw [g]
    by_cases hc : isSso V.v = true ∧ x.length = 14
    · rw [if_pos hc, hc.2, ssoCode_full]
    · rw [if_neg hc]; exact hz
  · intro hc; rw [g, if_pos ⟨hc, rfl⟩]
  · intro k hk
    rw [g]
    by_cases hc : isSso V.v = true ∧ k = 14
    · have := V.sso hc.1; omega
    · rw [if_neg hc]; exact hval k hk

/-- Mutability, as seen by later stores. -/
def Mut (w : Wld) (i : Nat) : Prop := ∃ v, w.vars[i]? = some v ∧ w.isMutable v = some true

theorem Now.mut {w : Wld} {i : Nat} {s : Bool} {d : Data} (h : Now w i s d) : Mut w i := by
  obtain ⟨v, h1, _, h2, _⟩ := h; exact ⟨v, h1, h2⟩

section
variable (ok : Bool) {w : Wld} {L : List Cells} (h : R w L) {i : Nat} (hi : i < L.length)
include h hi

theorem modifyOp_ok (op : ModifyOp) (n : Nat) :
    ∃ res start w', modifyOp ok w i op n = some (res, start, w') ∧
      ((res = .success ∧ start = (if op.assign then 0 else L[i].length) ∧ Mut w' i ∧
        ∃ g, g.length = n ∧ R w' (L.set i ((if op.assign then [] else L[i]) ++ g))) ∨
      (res = .outOfMemory ∧ w' = w ∧ (ok = false ∨ implMaxSize < 2 * (18 + ((if op.assign then 0 else L[i].length) + n))))) := by
  obtain ⟨V⟩ := view h i hi
  have hl := V.len
  simp only [modifyOp, V.hv, V.hu, V.hm, Option.bind_eq_bind, Option.bind_some, V.hok.size]
  obtain ⟨p, hp⟩ : ∃ p, p = (if op.assign then [] else L[i]) := ⟨_, rfl⟩
  have hpl : (if op.assign = true then 0 else L[i].length) = p.length := by rw [hp]; split <;> simp
  have hpi : p.length ≤ L[i].length := by rw [hp]; split <;> simp
  have hpk : ∀ k, k < p.length → V.u.cells[k]? = p[k]? := by
    intro k hk
    rw [V.hok.val k (by omega), hp]
    split
    · rename_i hc; rw [hp, if_pos hc] at hk; simp at hk
    · rfl
  rw [hpl, ← hp]
  obtain ⟨old, r1, r2, r3⟩ := rd_spec V.u.cells 0 p.length (by omega)
  by_cases hmc : masked (uaddSat p.length n) V.m > V.u.cap
  · rw [if_pos hmc]
    by_cases hss : uaddSat p.length n ≤ ssoCap ∧ op.grow = false
    · rw [if_pos hss]
      have hk : uaddSat p.length n = p.length + n := uaddSat_of _ _ (by have := hss.1; unfold ssoCap at this; rw [maxSize_eq]; omega)
      rw [hk] at hss ⊢
      have h14 : p.length + n ≤ 14 := hss.1
      obtain ⟨c, a1, a2, a3⟩ := wr_spec (initSso (p.length + n)) old 0 (by rw [initSso_len]; omega)
      obtain ⟨c2, b1, b2, b3⟩ := wr_spec c [some 0] (p.length + n) (by rw [a2, initSso_len]; simp; omega)
      have hshape : Shape true c2 (p.length + n) := by
        refine (initSso_shape _ h14).mono (by rw [b2, a2]) ?_
        intro k hk
        rw [b3]
        by_cases hc : p.length + n ≤ k ∧ k < p.length + n + [some (0 : UInt8)].length
        · rw [if_pos hc]
          have : k = p.length + n := by simp only [List.length_cons, List.length_nil] at hc; omega
          subst this
          rw [(initSso_shape _ h14).1]; simp
        · rw [if_neg hc, a3, if_neg (by omega)]
      have hok : New.ok (.sso c2) (p ++ c2.drop p.length |>.take (p.length + n)) := by
        have hlen : (p ++ c2.drop p.length |>.take (p.length + n)).length = p.length + n := by
          simp only [List.length_take, List.length_append, List.length_drop]
          have := hshape.len; omega
        refine ⟨rfl, by rw [hlen]; exact hshape, ?_⟩
        rw [hlen]
        intro k hk
        rw [List.getElem?_take, if_pos hk, List.getElem?_append]
        by_cases hkp : k < p.length
        · rw [if_pos hkp, b3, if_neg (by omega), a3, if_pos (by omega), r3, if_pos (by omega), ← hpk k hkp]; simp
        · rw [if_neg hkp, List.getElem?_drop]; congr 1; omega
      obtain ⟨w', q1, q2, q3⟩ := install_ok h hi _ _ hok
      simp only [r1, a1, b1, q1, Option.bind_some]
      refine ⟨_, _, _, rfl, .inl ⟨rfl, rfl, q3.mut, (c2.drop p.length).take n, ?_, ?_⟩⟩
      · have := hshape.len
        rw [List.length_take, List.length_drop]; omega
      · rw [List.take_append, List.take_of_length_le (by omega)] at q2
        rw [show p.length + n - p.length = n by omega] at q2
        exact q2
    · rw [if_neg hss]
      by_cases hx : uaddSat p.length n > maxSize
      · rw [if_pos hx]
        exact ⟨_, _, _, rfl, .inr ⟨rfl, rfl, .inr (uaddSat_lim _ _ hx)⟩⟩
      · rw [if_neg hx]
        have hk : uaddSat p.length n = p.length + n := uaddSat_of _ _ (by omega)
        rw [hk] at hx ⊢
        have e : implSize (p.length + n) = 17 + (p.length + n) := implSize_of _ (by omega)
        rw [e]
        have hge := expandOp_ge (17 + (p.length + n)) op
        rcases initDynamic_cases ok _ (p.length + n) hge with ⟨h1, h2⟩ | ⟨d, h1, h2, h3, h4⟩
        · simp only [h1, Option.bind_some]
          exact ⟨_, _, _, rfl, .inr ⟨rfl, rfl, h2.imp id (fun hh => by have := expandOp_le _ _ hh; omega)⟩⟩
        · have hdl := h3.len
          obtain ⟨c, a1, a2, a3⟩ := wr_spec d.cells old 0 (by omega)
          obtain ⟨c2, b1, b2, b3⟩ := wr_spec c [some 0] (p.length + n) (by simp; omega)
          have hshape : Shape false c2 (p.length + n) := by
            refine h3.mono (by rw [b2, a2]) ?_
            intro k hk
            rw [b3]
            by_cases hc : p.length + n ≤ k ∧ k < p.length + n + [some (0 : UInt8)].length
            · rw [if_pos hc]
              have : k = p.length + n := by simp only [List.length_cons, List.length_nil] at hc; omega
              subst this
              rw [h3.1]; simp
            · rw [if_neg hc, a3, if_neg (by omega)]
          have hok : New.ok (.dyn { d with cells := c2 }) (p ++ c2.drop p.length |>.take (p.length + n)) := by
            have hlen : (p ++ c2.drop p.length |>.take (p.length + n)).length = p.length + n := by
              simp only [List.length_take, List.length_append, List.length_drop]
              have := hshape.len; omega
            refine ⟨by rw [hlen]; exact h2, by rw [hlen]; exact hshape, ?_⟩
            rw [hlen]
            intro k hk
            rw [List.getElem?_take, if_pos hk, List.getElem?_append]
            by_cases hkp : k < p.length
            · simp only
              rw [if_pos hkp, b3, if_neg (by omega), a3, if_pos (by omega), r3, if_pos (by omega), ← hpk k hkp]; simp
            · rw [if_neg hkp, List.getElem?_drop]; simp only; congr 1; omega
          obtain ⟨w', q1, q2, q3⟩ := install_ok h hi _ _ hok
          simp only [h1, r1, a1, b1, q1, Option.bind_some]
          refine ⟨_, _, _, rfl, .inl ⟨rfl, rfl, q3.mut, (c2.drop p.length).take n, ?_, ?_⟩⟩
          · have := hshape.len
            rw [List.length_take, List.length_drop]; omega
          · rw [List.take_append, List.take_of_length_le (by omega)] at q2
            rw [show p.length + n - p.length = n by omega] at q2
            exact q2
  · rw [if_neg hmc]
    obtain ⟨m1, m2⟩ := (masked_gt V _).1 hmc
    have hk : uaddSat p.length n = p.length + n := uaddSat_small _ _ (by omega)
    rw [hk] at m2 ⊢
    obtain ⟨c, a1, a2, a3⟩ := wr_spec V.u.cells [some 0] (p.length + n) (by simp; omega)
    simp only [List.length_cons, List.length_nil] at a3
    have hz : c[p.length + n]? = some (some 0) := by rw [a3]; simp
    have hlc : ((c.drop p.length).take n).length = n := by rw [List.length_take, List.length_drop]; omega
    have hok := ok_setSize V c (p ++ (c.drop p.length).take n) a2 (by rw [List.length_append, hlc]; exact hz)
      (by rw [List.length_append, hlc]; exact m2) (by
        intro k hk
        rw [List.length_append, hlc] at hk
        rw [List.getElem?_append]
        by_cases hkp : k < p.length
        · rw [if_pos hkp, a3, if_neg (by omega), hpk k hkp]
        · rw [if_neg hkp, List.getElem?_take, if_pos (by omega), List.getElem?_drop]; congr 1; omega)
    rw [List.length_append, hlc] at hok
    obtain ⟨w', q1, q2, q3⟩ := commit_ok h hi V m1 _ _ hok
    simp only [a1, Option.bind_some]
    have plain : ∃ g, g.length = n ∧ R w' (L.set i (p ++ g)) := ⟨_, hlc, q2⟩
    cases hv : V.v with
    | dyn a =>
      rw [hv] at q1
      simp only [q1, Option.bind_some]
      exact ⟨_, _, _, rfl, .inl ⟨rfl, rfl, q3.mut, plain⟩⟩
    | sso s =>
      simp only
      by_cases ha : op.assign = true
      · rw [if_pos ha]
        have hsso : isSso V.v = true := by rw [hv]; rfl
        have h15 := V.sso hsso
        have hp0 : p = [] := by rw [hp, if_pos ha]
        subst hp0
        simp only [List.length_nil, Nat.zero_add] at *
        obtain ⟨c2, b1, b2, b3⟩ := wr_spec (setSize (.sso s) ⟨L[i].length, c⟩ n).cells (List.replicate 14 (some 0)) 0
          (by rw [setSize_len]; simp; omega)
        simp only [List.length_replicate, Nat.zero_le, true_and, Nat.zero_add, Nat.sub_zero] at b3
        have g14 := setSize_get (.sso s) ⟨L[i].length, c⟩ n 14 (fun _ => by simp only; omega)
        have hok2 : Ok (isSso V.v) { setSize (.sso s) ⟨L[i].length, c⟩ n with cells := c2 } (List.replicate n (some 0)) := by
          refine ok_inplace V _ _ (by simp only [List.length_replicate]; rw [setSize_size]) (by simp only; rw [b2, setSize_len]; exact a2) ?_ ?_ (by simp; omega) ?_
          · simp only [List.length_replicate]
            rw [b3]
            by_cases hn : n < 14
            · rw [if_pos hn, List.getElem?_replicate, if_pos hn]
            · have : n = 14 := by omega
              rw [if_neg hn]
              subst this
              rw [g14]; simp [isSso, ssoCode_full]
          · intro _
            simp only [List.length_replicate]
            rw [b3, if_neg (by omega), g14]
            simp [isSso]
          · intro k hk
            simp only [List.length_replicate] at hk
            simp only
            rw [b3, if_pos (by omega), List.getElem?_replicate, if_pos (by omega), List.getElem?_replicate, if_pos hk]
        obtain ⟨w2, y1, y2, y3⟩ := commit_ok h hi V m1 _ _ hok2
        simp only [b1, y1, Option.bind_some]
        exact ⟨_, _, _, rfl, .inl ⟨rfl, rfl, y3.mut, _, List.length_replicate, y2⟩⟩
      · rw [if_neg ha]
        rw [hv] at q1
        simp only [q1, Option.bind_some]
        exact ⟨_, _, _, rfl, .inl ⟨rfl, rfl, q3.mut, plain⟩⟩

end
end Blend2D.Str
