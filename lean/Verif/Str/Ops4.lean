import Verif.Str.Ops3
/-! # The operations of `BLString` keep the relation (copying characters) -/
namespace Blend2D.Str
open Cow
open Blend2D.Arr (Result Src ModifyOp rd wr move copy masked uaddSat expand implMaxSize implMaxSize_eq le_expand expand_le)

/-- `insertInPlace` on the cells of a string. -/
theorem insertInPlace_spec (c : Cells) (l : Cells) (idx n : Nat) (str : Src UInt8) (hn : str.len = n) (hs : str.Ok l) (hidx : idx ≤ l.length)
    (hc : l.length + n < c.length) (hval : ∀ k, k < l.length → c[k]? = l[k]?) :
    ∃ e, insertInPlace c l.length idx str = some e ∧ e.length = c.length ∧
      ∀ k, e[k]? = if k < idx then c[k]? else if k < idx + n then (str.val l)[k - idx]?
        else if k < l.length + n + 1 then c[k - n]? else c[k]? := by
  obtain ⟨c1, m1, m2, m3⟩ := move_spec c (idx + n) idx (l.length - idx + 1) (by omega) (by omega)
  simp only [insertInPlace, hn, m1, Option.bind_eq_bind, Option.bind_some]
  cases str with
  | ext x b =>
    have hxl : (x.map (some : UInt8 → Option UInt8)).length = n := by simpa [Src.len] using hn
    obtain ⟨e, e1, e2, e3⟩ := wr_spec c1 (x.map some) idx (by omega)
    rw [hxl] at e3
    refine ⟨e, e1, by omega, ?_⟩
    intro k
    rw [e3]
    by_cases h1 : k < idx
    · rw [if_neg (by omega), if_pos h1, m3, if_neg (by omega)]
    · rw [if_neg h1]
      by_cases h2 : k < idx + n
      · rw [if_pos (by omega), if_pos h2, Src.val]
      · rw [if_neg (by omega), if_neg h2, m3]
        by_cases h3 : k < l.length + n + 1
        · rw [if_pos (by omega), if_pos h3]; congr 1; omega
        · rw [if_neg (by omega), if_neg h3]
  | own off n' =>
    have hn' : n = n' := hn.symm
    subst hn'
    have hs : off + n ≤ l.length := hs
    obtain ⟨lead, hlead⟩ : ∃ x, x = (if off < idx then min (idx - off) n else 0) := ⟨_, rfl⟩
    simp only
    rw [← hlead]
    have hle : lead ≤ n ∧ (lead < n → idx ≤ off + lead) ∧ (lead = 0 ∨ off + lead ≤ idx) := by rw [hlead]; split <;> omega
    obtain ⟨src, hsrc⟩ : ∃ x, x = (if off + lead < l.length + n then off + lead + n else off + lead) := ⟨_, rfl⟩
    rw [← hsrc]
    have hsrc' : src = off + lead + n ∨ (n = 0 ∧ src = off + lead) := by rw [hsrc]; split <;> omega
    clear hsrc hlead
    obtain ⟨c2, a1, a2, a3⟩ := copy_spec c1 idx off lead (by omega) (by omega) (by omega)
    obtain ⟨e, e1, e2, e3⟩ := copy_spec c2 (idx + lead) src (n - lead) (by omega) (by omega) (by omega)
    simp only [a1, e1, Option.bind_some]
    refine ⟨e, rfl, by omega, ?_⟩
    intro k
    rw [e3]
    by_cases h1 : k < idx
    · rw [if_neg (by omega), if_pos h1, a3, if_neg (by omega), m3, if_neg (by omega)]
    · rw [if_neg h1]
      by_cases h2 : k < idx + n
      · have hr : (Src.val (Src.own off n) l)[k - idx]? = c[off + (k - idx)]? := by
          rw [Src.val, List.getElem?_take, if_pos (by omega), List.getElem?_drop, ← hval _ (by omega)]
        rw [if_pos h2, hr]
        by_cases h4 : k < idx + lead
        · rw [if_neg (by omega), a3, if_pos (by omega), m3, if_neg (by omega)]
        · rw [if_pos (by omega), a3, if_neg (by omega), m3, if_pos (by omega)]; congr 1; omega
      · rw [if_neg (by omega), if_neg h2, a3, if_neg (by omega), m3]
        by_cases h3 : k < l.length + n + 1
        · rw [if_pos (by omega), if_pos h3]; congr 1; omega
        · rw [if_neg (by omega), if_neg h3]

theorem mapM_some (x : List UInt8) : (x.map some).mapM (id : Option UInt8 → Option UInt8) = some x := by
  induction x with
  | nil => rfl
  | cons a t ih => simp [List.mapM_cons, ih]

section
variable (ok : Bool) {w : Wld} {L : List Cells} (h : R w L) {i : Nat} (hi : i < L.length)
include h hi

omit h in
/-- The prefix an operation keeps. -/
theorem kept (op : ModifyOp) (V : View w i L[i]) : ∃ p, p = (if op.assign then [] else L[i]) ∧
    (if op.assign = true then 0 else L[i].length) = p.length ∧ p.length ≤ L[i].length ∧
    (∀ k, k < p.length → V.u.cells[k]? = p[k]?) ∧ (op.assign = true → p = []) := by
  refine ⟨_, rfl, by split <;> simp, by split <;> simp, ?_, fun hc => by rw [if_pos hc]⟩
  intro k hk
  by_cases hc : op.assign = true
  · rw [if_pos hc] at hk; simp at hk
  · rw [if_neg hc] at hk
    rw [if_neg hc, V.hok.val k hk]

theorem modifyAndCopy_ok (op : ModifyOp) (str : Src UInt8) (hs : str.Ok L[i])
    (hroom : op.grow = true ∨ 14 < (if op.assign then 0 else L[i].length) + str.len ∨ Room w i ((if op.assign then 0 else L[i].length) + str.len)) :
    Good w L i ((if op.assign then [] else L[i]) ++ str.val L[i]) ok ((if op.assign then 0 else L[i].length) + str.len) (modifyAndCopy ok w i op str) := by
  obtain ⟨V⟩ := view h i hi
  have hl := V.len
  obtain ⟨p, hp, hpl, hpi, hpk, hpa⟩ := kept hi op V
  obtain ⟨xs, x1, x2, x3⟩ := read_spec V str hs
  unfold Good
  simp only [modifyAndCopy, V.hv, V.hu, V.hm, Option.bind_eq_bind, Option.bind_some, V.hok.size]
  rw [hpl] at hroom ⊢
  rw [← hp, ← x2]
  obtain ⟨n, hn⟩ : ∃ n, n = str.len := ⟨_, rfl⟩
  rw [← hn] at hroom x3 ⊢
  have hyl : (p ++ xs).length = p.length + n := by rw [List.length_append, x3]
  by_cases hmc : masked (uaddSat p.length n) V.m > V.u.cap
  · rw [if_pos hmc]
    by_cases hx : uaddSat p.length n > maxSize
    · rw [if_pos hx]
      exact ⟨_, _, rfl, .inr ⟨rfl, rfl, .inr (uaddSat_lim _ _ hx)⟩⟩
    · rw [if_neg hx]
      have hk : uaddSat p.length n = p.length + n := uaddSat_of _ _ (by omega)
      rw [hk] at hx hmc ⊢
      have hng : ¬ (p.length + n ≤ ssoCap ∧ op.grow = false) := by
        rintro ⟨g1, g2⟩
        have g1 : p.length + n ≤ 14 := g1
        rcases hroom with h1 | h1 | ⟨v, u, r1, r2, r3, r4⟩
        · rw [g2] at h1; simp at h1
        · omega
        · rw [V.hv] at r1; cases r1
          rw [V.hu] at r2; cases r2
          rw [V.hm] at r3
          have r3 : V.m = true := by simpa using r3
          exact absurd hmc ((masked_gt V _).2 ⟨r3, r4⟩)
      rw [if_neg hng, implSize_of _ (by omega)]
      rcases dyn_new ok (expandOp (17 + (p.length + n)) op) (p.length + n) (expandOp_ge _ op) with ⟨h1, h2⟩ | ⟨d, h1, h2, h3⟩
      · simp only [h1, Option.bind_some]
        exact ⟨_, _, rfl, .inr ⟨rfl, rfl, h2.imp id (fun hh => by have := expandOp_le _ _ hh; omega)⟩⟩
      · obtain ⟨old, r1, r2, r3⟩ := rd_spec V.u.cells 0 p.length (by omega)
        obtain ⟨c, c1, c2, c3⟩ := wr_spec d.cells old 0 (by omega)
        obtain ⟨e, e1, e2, e3⟩ := wr_spec c xs p.length (by omega)
        have hok := h3 e (p ++ xs) hyl (by omega) (fun k hk => by rw [e3, if_neg (by omega), c3, if_neg (by omega)]) (by
          intro k hk
          rw [e3, List.getElem?_append]
          by_cases hkp : k < p.length
          · rw [if_neg (by omega), if_pos hkp, c3, if_pos (by omega), r3, if_pos (by omega), ← hpk k hkp]; simp
          · rw [if_pos (by omega), if_neg hkp])
        obtain ⟨w', q1, q2, q3⟩ := install_ok h hi _ _ hok
        simp only [h1, r1, x1, c1, e1, q1, Option.bind_some]
        exact ⟨_, _, rfl, .inl ⟨rfl, q2⟩⟩
  · rw [if_neg hmc]
    obtain ⟨m1, m2⟩ := (masked_gt V _).1 hmc
    have hk : uaddSat p.length n = p.length + n := uaddSat_small _ _ (by omega)
    rw [hk] at m2 ⊢
    obtain ⟨c, c1, c2, c3⟩ := wr_spec V.u.cells xs p.length (by omega)
    obtain ⟨e, e1, e2, e3⟩ := wr_spec c [some 0] (p.length + n) (by simp; omega)
    simp only [List.length_cons, List.length_nil] at e3
    have hek : ∀ k, k < (p ++ xs).length → e[k]? = (p ++ xs)[k]? := by
      intro k hk
      rw [hyl] at hk
      rw [e3, if_neg (by omega), c3, List.getElem?_append]
      by_cases hkp : k < p.length
      · rw [if_neg (by omega), if_pos hkp, hpk k hkp]
      · rw [if_pos (by omega), if_neg hkp]
    have hez : e[p.length + n]? = some (some 0) := by rw [e3, if_pos (by omega)]; simp
    have hok := ok_setSize V e (p ++ xs) (by omega) (by rw [hyl]; exact hez) (by omega) hek
    rw [hyl] at hok
    obtain ⟨w', q1, q2, q3⟩ := commit_ok h hi V m1 _ _ hok
    simp only [x1, c1, e1, Option.bind_some]
    cases hv : V.v with
    | dyn a =>
      rw [hv] at q1
      simp only [q1, Option.bind_some]
      exact ⟨_, _, rfl, .inl ⟨rfl, q2⟩⟩
    | sso s =>
      simp only
      by_cases ha : op.assign = true
      · rw [if_pos ha]
        have hsso : isSso V.v = true := by rw [hv]; rfl
        have h15 := V.sso hsso
        have hp0 := hpa ha
        have hp0l : p.length = 0 := by rw [hp0]; rfl
        have g := fun k => setSize_get (.sso s) ⟨L[i].length, e⟩ (p.length + n) k (fun _ => by simp only; omega)
        obtain ⟨c2', b1, b2, b3⟩ := wr_spec (setSize (.sso s) ⟨L[i].length, e⟩ (p.length + n)).cells (List.replicate (ssoCap - (p.length + n)) (some 0)) (p.length + n)
          (by rw [setSize_len]; simp [ssoCap]; omega)
        simp only [List.length_replicate, ssoCap] at b3
        have hok2 : Ok (isSso V.v) { setSize (.sso s) ⟨L[i].length, e⟩ (p.length + n) with cells := c2' } (p ++ xs) := by
          refine ok_inplace V _ _ (by rw [hyl]; exact setSize_size ..) (by simp only; rw [b2, setSize_len]; simp only; omega) ?_ ?_ (by omega) ?_
          · simp only; rw [hyl, b3]
            by_cases hn : p.length + n < 14
            · rw [if_pos (by omega), List.getElem?_replicate, if_pos (by omega)]
            · have : p.length + n = 14 := by omega
              rw [if_neg (by omega), g, if_pos ⟨rfl, this⟩, this, ssoCode_full]
          · intro _
            simp only; rw [hyl, b3, if_neg (by omega), g, if_pos ⟨rfl, rfl⟩]
          · intro k hk
            rw [hyl] at hk
            simp only
            rw [b3, if_neg (by omega), g, if_neg (by omega)]
            exact hek k (by omega)
        obtain ⟨w2, y1, y2, y3⟩ := commit_ok h hi V m1 _ _ hok2
        simp only [ssoCap] at b1 ⊢
        simp only [b1, y1, Option.bind_some]
        exact ⟨_, _, rfl, .inl ⟨rfl, y2⟩⟩
      · rw [if_neg ha]
        rw [hv] at q1
        simp only [q1, Option.bind_some]
        exact ⟨_, _, rfl, .inl ⟨rfl, q2⟩⟩

theorem insertAndCopy_ok (idx : Nat) (str : Src UInt8) (hs : str.Ok L[i]) (hidx : idx ≤ L[i].length) :
    Good w L i (L[i].take idx ++ (str.val L[i] ++ L[i].drop idx)) ok (L[i].length + str.len) (insertAndCopy ok w i idx str) := by
  obtain ⟨V⟩ := view h i hi
  have hl := V.len
  have hval := V.hok.val
  obtain ⟨xs, x1, x2, x3⟩ := read_spec V str hs
  unfold Good
  simp only [insertAndCopy, V.hv, V.hu, V.hm, Option.bind_eq_bind, Option.bind_some, V.hok.size]
  rw [if_neg (show ¬ idx > L[i].length by omega), ← x2]
  obtain ⟨n, hn⟩ : ∃ n, n = str.len := ⟨_, rfl⟩
  rw [← hn] at x3 ⊢
  obtain ⟨y, hy⟩ : ∃ y, y = L[i].take idx ++ (xs ++ L[i].drop idx) := ⟨_, rfl⟩
  rw [← hy]
  have hti : (L[i].take idx).length = idx := by rw [List.length_take]; omega
  have hyl : y.length = L[i].length + n := by
    rw [hy, List.length_append, List.length_append, hti, List.length_drop]; omega
  have hyk : ∀ k, y[k]? = if k < idx then L[i][k]? else if k < idx + n then xs[k - idx]? else L[i][k - n]? := by
    intro k
    rw [hy, List.getElem?_append, hti, List.getElem?_append, x3]
    by_cases h1 : k < idx
    · rw [if_pos h1, if_pos h1, List.getElem?_take, if_pos h1]
    · rw [if_neg h1, if_neg h1]
      by_cases h2 : k < idx + n
      · rw [if_pos (by omega), if_pos h2]
      · rw [if_neg (by omega), if_neg h2, List.getElem?_drop]; congr 1; omega
  by_cases hmc : masked (uaddSat L[i].length n) V.m > V.u.cap
  · rw [if_pos hmc]
    by_cases hx : uaddSat L[i].length n > maxSize
    · rw [if_pos hx]
      exact ⟨_, _, rfl, .inr ⟨rfl, rfl, .inr (uaddSat_lim _ _ hx)⟩⟩
    · rw [if_neg hx]
      have hk : uaddSat L[i].length n = L[i].length + n := uaddSat_of _ _ (by omega)
      rw [hk] at hx ⊢
      rw [implSize_of _ (by omega)]
      rcases dyn_new ok (expand (17 + (L[i].length + n))) (L[i].length + n) (le_expand _) with ⟨h1, h2⟩ | ⟨d, h1, h2, h3⟩
      · simp only [h1, Option.bind_some]
        exact ⟨_, _, rfl, .inr ⟨rfl, rfl, h2.imp id (fun hh => by have := expand_lim _ hh; omega)⟩⟩
      · obtain ⟨a, a1, a2, a3⟩ := rd_spec V.u.cells 0 idx (by omega)
        obtain ⟨b, b1, b2, b3⟩ := rd_spec V.u.cells idx (L[i].length - idx) (by omega)
        obtain ⟨c, c1, c2, c3⟩ := wr_spec d.cells a 0 (by omega)
        obtain ⟨e, e1, e2, e3⟩ := wr_spec c b (idx + n) (by omega)
        obtain ⟨f, f1, f2, f3⟩ := wr_spec e xs idx (by omega)
        have hok := h3 f y hyl (by omega) (fun k hk => by rw [f3, if_neg (by omega), e3, if_neg (by omega), c3, if_neg (by omega)]) (by
          intro k hk
          rw [hyk, f3]
          by_cases g1 : k < idx
          · rw [if_neg (by omega), if_pos g1, e3, if_neg (by omega), c3, if_pos (by omega), a3, if_pos (by omega), ← hval k (by omega)]; simp
          · rw [if_neg g1]
            by_cases g2 : k < idx + n
            · rw [if_pos (by omega), if_pos g2]
            · rw [if_neg (by omega), if_neg g2, e3, if_pos (by omega), b3, if_pos (by omega), hval _ (by omega)]; congr 1; omega)
        obtain ⟨w', q1, q2, q3⟩ := install_ok h hi _ _ hok
        simp only [h1, a1, b1, c1, e1, x1, f1, q1, Option.bind_some]
        exact ⟨_, _, rfl, .inl ⟨rfl, q2⟩⟩
  · rw [if_neg hmc]
    obtain ⟨m1, m2⟩ := (masked_gt V _).1 hmc
    have hk : uaddSat L[i].length n = L[i].length + n := uaddSat_small _ _ (by omega)
    rw [hk] at m2 ⊢
    have h15 : isSso V.v = true → V.u.cells.length = 15 := fun hc => (V.sso hc).1
    have g0 := fun k => setSize_get V.v V.u (L[i].length + n) k h15
    have gl := setSize_len V.v V.u (L[i].length + n)
    -- the old NUL is overwritten by the size only if nothing is inserted
    have hg : ∀ k, k < L[i].length → (setSize V.v V.u (L[i].length + n)).cells[k]? = L[i][k]? := by
      intro k hk
      rw [g0, if_neg (by rintro ⟨q1, q2⟩; have := V.sso q1; omega), hval k hk]
    have hgz : (setSize V.v V.u (L[i].length + n)).cells[L[i].length]? = some (some 0) := by
      rw [g0]
      by_cases hc : isSso V.v = true ∧ L[i].length = 14
      · have := V.sso hc.1
        rw [if_pos hc, show L[i].length + n = 14 by omega, ssoCode_full]
      · rw [if_neg hc]; exact V.hok.shape.1
    obtain ⟨e, e1, e2, e3⟩ := insertInPlace_spec (setSize V.v V.u (L[i].length + n)).cells L[i] idx n str hn.symm hs hidx (by omega) hg
    rw [← x2] at e3
    have hok : Ok (isSso V.v) { setSize V.v V.u (L[i].length + n) with cells := e } y := by
      refine ok_inplace V _ _ (by rw [hyl]; exact setSize_size ..) (by simp only; omega) ?_ ?_ (by omega) ?_
      · simp only
        rw [hyl, e3, if_neg (by omega)]
        by_cases hc : L[i].length + n < idx + n
        · omega
        · rw [if_neg hc, if_pos (by omega), show L[i].length + n - n = L[i].length by omega]; exact hgz
      · intro hc
        have h16 := V.sso hc
        rw [hyl]
        simp only
        rw [e3, if_neg (by omega)]
        by_cases hf : L[i].length + n = 14
        · rw [if_neg (by omega), if_pos (by omega), show 14 - n = L[i].length by omega, hgz, hf, ssoCode_full]
        · rw [if_neg (by omega), if_neg (by omega), g0, if_pos ⟨hc, rfl⟩]
      · intro k hk
        rw [hyl] at hk
        simp only
        rw [e3, hyk]
        by_cases g1 : k < idx
        · rw [if_pos g1, if_pos g1, hg k (by omega)]
        · rw [if_neg g1, if_neg g1]
          by_cases g2 : k < idx + n
          · rw [if_pos g2, if_pos g2]
          · rw [if_neg g2, if_neg g2, if_pos (by omega), hg _ (by omega)]
    obtain ⟨w', q1, q2, q3⟩ := commit_ok h hi V m1 _ _ hok
    simp only [e1, q1, Option.bind_some]
    exact ⟨_, _, rfl, .inl ⟨rfl, q2⟩⟩

theorem source_ok {j : Nat} (hj : j < L.length) (y : List UInt8) (hy : L[j] = y.map some) :
    ∃ str, source w i j = some str ∧ str.Ok L[i] ∧ str.len = y.length ∧ str.val L[i] = y.map some := by
  obtain ⟨V⟩ := view h j hj
  have hl := V.len
  have hyl : L[j].length = y.length := by rw [hy]; simp
  simp only [source, V.hv, V.hu, Option.bind_eq_bind, Option.bind_some, V.hok.size]
  by_cases hij : i = j
  · subst hij
    rw [if_pos rfl]
    exact ⟨_, rfl, by simp [Src.Ok], hyl, by simp only [Src.val, List.drop_zero, List.take_length]; exact hy⟩
  · rw [if_neg hij]
    obtain ⟨r, r1, r2, r3⟩ := rd_spec V.u.cells 0 L[j].length (by omega)
    have hr : r = y.map some := by
      rw [← hy]
      apply List.ext_getElem?
      intro k
      rw [r3]
      by_cases hk : k < L[j].length
      · rw [if_pos hk, Nat.zero_add, V.hok.val k hk]
      · rw [if_neg hk, List.getElem?_eq_none (by omega)]
    simp only [r1, hr, Option.bind_some, mapM_some]
    exact ⟨_, rfl, trivial, rfl, rfl⟩

theorem insertString_ok {j : Nat} (hj : j < L.length) (y : List UInt8) (hy : L[j] = y.map some) (idx : Nat) (hidx : idx ≤ L[i].length) :
    Good w L i (L[i].take idx ++ (y.map some ++ L[i].drop idx)) ok (L[i].length + y.length) (insertString ok w i idx j) := by
  obtain ⟨str, s1, s2, s3, s4⟩ := source_ok h hi hj y hy
  obtain ⟨V⟩ := view h i hi
  have hl := V.len
  simp only [insertString, s1, V.hv, V.hu, Option.bind_eq_bind, Option.bind_some, V.hok.size]
  by_cases hc : i = j ∧ isSso V.v = true
  · rw [if_pos hc]
    obtain ⟨hij, hc⟩ := hc
    subst hij
    obtain ⟨r, r1, r2, r3⟩ := rd_spec V.u.cells 0 L[i].length (by omega)
    have hr : r = y.map some := by
      rw [← hy]
      apply List.ext_getElem?
      intro k
      rw [r3]
      by_cases hk : k < L[i].length
      · rw [if_pos hk, Nat.zero_add, V.hok.val k hk]
      · rw [if_neg hk, List.getElem?_eq_none (by omega)]
    simp only [r1, hr, Option.bind_some, mapM_some]
    exact insertAndCopy_ok ok h hi idx (.ext y true) trivial hidx
  · rw [if_neg hc, ← s4, ← s3]
    exact insertAndCopy_ok ok h hi idx str s2 hidx

end

/-- The allocating end of `bl_string_apply_op_format_v`. -/
theorem formatAlloc (ok : Bool) (i : Nat) (op : ModifyOp) (w : Wld) (u : Data) (p : Cells) (o : List UInt8)
    (hu : ∀ k, k < p.length → u.cells[k]? = p[k]?) (hul : p.length ≤ u.cells.length) :
    (applyFormat.alloc ok i op w u p.length o = some (.outOfMemory, w) ∧ (ok = false ∨ implMaxSize < 2 * (18 + (p.length + o.length)))) ∨
    ∃ d, New.ok (.dyn d) (p ++ o.map some) ∧
      applyFormat.alloc ok i op w u p.length o = (install w i (.dyn d)).map (fun w => (Result.success, w)) := by
  simp only [applyFormat.alloc, Option.bind_eq_bind]
  by_cases hx : uaddSat p.length o.length > maxSize
  · rw [if_pos hx]; exact .inl ⟨rfl, .inr (uaddSat_lim _ _ hx)⟩
  · rw [if_neg hx]
    have hk : uaddSat p.length o.length = p.length + o.length := uaddSat_of _ _ (by omega)
    rw [hk] at hx ⊢
    rw [implSize_of _ (by omega)]
    rcases dyn_new ok (expandOp (17 + (p.length + o.length)) op) (p.length + o.length) (expandOp_ge _ op) with ⟨h1, h2⟩ | ⟨d, h1, h2, h3⟩
    · simp only [h1, Option.bind_some]
      exact .inl ⟨rfl, h2.imp id (fun hh => by have := expandOp_le _ _ hh; omega)⟩
    · have hs : snprintf o (o.length + 1) = o.map some ++ [some 0] := by simp [snprintf]
      have hsl : (o.map some ++ [some (0 : UInt8)]).length = o.length + 1 := by simp
      obtain ⟨c, c1, c2, c3⟩ := wr_spec d.cells (o.map some ++ [some 0]) p.length (by omega)
      obtain ⟨old, r1, r2, r3⟩ := rd_spec u.cells 0 p.length (by omega)
      obtain ⟨e, e1, e2, e3⟩ := wr_spec c old 0 (by omega)
      have hz : d.cells[p.length + o.length]? = some (some 0) := by
        rcases initDynamic_cases ok (expandOp (17 + (p.length + o.length)) op) (p.length + o.length) (expandOp_ge _ op) with ⟨g1, _⟩ | ⟨d', g1, _, g3, _⟩
        · rw [h1] at g1; simp at g1
        · rw [h1] at g1; simp only [Option.some.injEq] at g1; subst g1; exact g3.1
      refine .inr ⟨{ d with cells := e }, ?_, ?_⟩
      · refine h3 e _ (by simp) (by omega) ?_ ?_
        · intro k hk
          rw [e3, if_neg (by omega), c3, hsl]
          by_cases hc : p.length ≤ k ∧ k < p.length + (o.length + 1)
          · have : k = p.length + o.length := by omega
            subst this
            rw [if_pos hc, hz, List.getElem?_append_right (by simp)]; simp
          · rw [if_neg hc]
        · intro k hk
          rw [e3, List.getElem?_append]
          by_cases hkp : k < p.length
          · rw [if_pos (by omega), if_pos hkp, r3, if_pos (by omega), ← hu k hkp]; simp
          · rw [if_neg (by omega), if_neg hkp, c3, if_pos (by omega), List.getElem?_append_left (by simp; omega)]
      · simp only [h1, hs, c1, r1, e1, Option.bind_some]
        cases install w i (.dyn { d with cells := e }) <;> rfl

/-! A string that is being written to can be in any state until it's replaced. -/

def okS' (s : Sso) : Option Cells → Prop
  | some v => okS s v
  | none => True

def okB' (d : Data) : Option Cells → Prop
  | some v => okB d v
  | none => True

theorem rel_lift {w : Wld} {L : List Cells} : Rel okS' okB' w (L.map some) [] ↔ R w L := by
  have hh : ∀ c v, Holds okS' okB' w c (some v) ↔ Holds okS okB w c v := by
    intro c v; cases c <;> exact Iff.rfl
  constructor
  · intro h
    refine ⟨by simpa using h.len, ?_, h.live, h.cnt⟩
    intro i c v h1 h2
    exact (hh c v).1 (h.hold i c (some v) h1 (by rw [List.getElem?_map, h2]; rfl))
  · intro h
    refine ⟨by simpa using h.len, ?_, h.live, h.cnt⟩
    intro i c v h1 h2
    rw [List.getElem?_map] at h2
    cases hv : L[i]? with
    | none => rw [hv] at h2; simp at h2
    | some x =>
      rw [hv] at h2
      simp only [Option.map_some, Option.some.injEq] at h2
      subst h2
      exact (hh c x).2 (h.hold i c x h1 hv)

theorem commit_install {w : Wld} {L : List Cells} (h : R w L) {i : Nat} (hi : i < L.length) (V : View w i L[i]) (hm : V.m = true)
    (hd : isSso V.v = false) (u : Data) :
    ∃ w1, commit w i u = some w1 ∧ ∀ d x, New.ok (.dyn d) x → ∃ w2, install w1 i (.dyn d) = some w2 ∧ R w2 (L.set i x) := by
  have hhold := h.hold i _ _ V.hv (List.getElem?_eq_getElem hi)
  obtain ⟨v, u0, m, hv, hu, hmm, hok, _⟩ := V
  simp only at hm hd hhold
  subst hm
  cases v with
  | sso s => simp [isSso] at hd
  | dyn a =>
    obtain ⟨b, hbk, h1⟩ := hhold
    have hrc : b.rc = 1 := by simpa [World.isMutable, hbk] using hmm
    obtain ⟨r1, r2, r3⟩ := rel_mutate (rel_lift.2 h) i a hv b hbk hrc u none trivial
    refine ⟨_, by simp only [commit, hv, Option.bind_eq_bind, Option.bind_some, hbk]; rfl, ?_⟩
    intro d x hx
    obtain ⟨w2, s1, s2, _⟩ := rel_replace_new r1 1 d (by omega) i (by simpa using hi) (some x) hx
    refine ⟨w2, s1, ?_⟩
    rw [List.set_set, ← List.map_set] at s2
    exact rel_lift.1 s2

section
variable (ok : Bool) {w : Wld} {L : List Cells} (h : R w L) {i : Nat} (hi : i < L.length)
include h hi

theorem applyFormat_none (op : ModifyOp) : applyFormat ok w i op none = some (.invalidValue, w) := by
  obtain ⟨V⟩ := view h i hi
  simp only [applyFormat, V.hv, V.hu, V.hm, Option.bind_eq_bind, Option.bind_some]
  rfl

theorem applyFormat_ok (op : ModifyOp) (o : List UInt8)
    (hroom : op.grow = true ∨ 14 < (if op.assign then 0 else L[i].length) + o.length ∨ Room w i ((if op.assign then 0 else L[i].length) + o.length))
    (hbig : Room w i ((if op.assign then 0 else L[i].length) + 64) → Room w i ((if op.assign then 0 else L[i].length) + o.length) ∨
      (ok = true ∧ 2 * (18 + ((if op.assign then 0 else L[i].length) + o.length)) ≤ implMaxSize)) :
    Good w L i ((if op.assign then [] else L[i]) ++ o.map some) ok ((if op.assign then 0 else L[i].length) + o.length) (applyFormat ok w i op (some o)) := by
  have hcopy := modifyAndCopy_ok ok h hi op (.ext o false) trivial hroom
  obtain ⟨V⟩ := view h i hi
  have hl := V.len
  obtain ⟨p, hp, hpl, hpi, hpk, hpa⟩ := kept hi op V
  simp only [applyFormat, V.hv, V.hu, V.hm, Option.bind_eq_bind, Option.bind_some, V.hok.size]
  rw [hpl] at hbig hcopy ⊢
  rw [← hp] at hcopy ⊢
  have hroom' : ∀ n, Room w i n ↔ V.m = true ∧ n ≤ V.u.cap := by
    intro n
    constructor
    · rintro ⟨v, u, r1, r2, r3, r4⟩
      rw [V.hv] at r1; cases r1
      rw [V.hu] at r2; cases r2
      rw [V.hm] at r3
      exact ⟨by simpa using r3, r4⟩
    · rintro ⟨r1, r2⟩; exact ⟨V.v, V.u, V.hv, V.hu, by rw [V.hm, r1], r2⟩
  rw [hroom', hroom'] at hbig
  by_cases hr : V.m = true ∧ V.u.cap - p.length ≥ 64
  · rw [if_pos hr]
    have hnd : isSso V.v = false := by
      cases hc : isSso V.v with
      | false => rfl
      | true => have := V.sso hc; omega
    have hsl : (snprintf o (V.u.cap - p.length + 1)).length = min o.length (V.u.cap - p.length) + 1 := by simp [snprintf]; omega
    obtain ⟨c, c1, c2, c3⟩ := wr_spec V.u.cells (snprintf o (V.u.cap - p.length + 1)) p.length (by omega)
    simp only [c1, Option.bind_some]
    by_cases hf : o.length ≤ V.u.cap - p.length
    · rw [if_pos hf]
      have hs : snprintf o (V.u.cap - p.length + 1) = o.map some ++ [some 0] := by
        rw [snprintf, List.take_of_length_le (by omega)]
      have hyl : (p ++ o.map some).length = p.length + o.length := by simp
      have hok := ok_setSize V c (p ++ o.map some) (by omega) (by
          rw [hyl, c3, hsl, if_pos (by omega), hs, List.getElem?_append_right (by simp)]; simp) (by omega) (by
          intro k hk
          rw [hyl] at hk
          rw [c3, hsl, List.getElem?_append]
          by_cases hkp : k < p.length
          · rw [if_neg (by omega), if_pos hkp, hpk k hkp]
          · rw [if_pos (by omega), if_neg hkp, hs, List.getElem?_append_left (by simp; omega)])
      rw [hyl] at hok
      obtain ⟨w', q1, q2, q3⟩ := commit_ok h hi V hr.1 _ _ hok
      simp only [q1, Option.bind_some]
      exact ⟨_, _, rfl, .inl ⟨rfl, q2⟩⟩
    · rw [if_neg hf]
      obtain ⟨w1, g1, g2⟩ := commit_install h hi V hr.1 hnd ⟨L[i].length, c⟩
      simp only [g1, Option.bind_some]
      rcases formatAlloc ok i op w1 ⟨L[i].length, c⟩ p o (fun k hk => by simp only; rw [c3, if_neg (by omega), hpk k hk]) (by simp only; omega) with ⟨f1, f2⟩ | ⟨d, f1, f2⟩
      · have := hbig ⟨hr.1, by omega⟩
        rcases this with hb | ⟨hb1, hb2⟩
        · omega
        · rcases f2 with f2 | f2
          · rw [hb1] at f2; simp at f2
          · omega
      · obtain ⟨w2, k1, k2⟩ := g2 d _ f1
        rw [f2, k1]
        exact ⟨_, _, rfl, .inl ⟨rfl, k2⟩⟩
  · rw [if_neg hr]
    by_cases hs : o.length < 1024
    · rw [if_pos hs]; exact hcopy
    · rw [if_neg hs]
      have hu : V.u = ⟨L[i].length, V.u.cells⟩ := by have := V.hok.size; cases hu : V.u; rw [hu] at this; simp only at this; rw [← this]
      rcases formatAlloc ok i op w V.u p o hpk (by omega) with ⟨f1, f2⟩ | ⟨d, f1, f2⟩
      · rw [f1]; exact ⟨_, _, rfl, .inr ⟨rfl, rfl, f2⟩⟩
      · obtain ⟨w', q1, q2, q3⟩ := install_ok h hi _ _ f1
        rw [f2, q1]
        exact ⟨_, _, rfl, .inl ⟨rfl, q2⟩⟩

end
end Blend2D.Str
