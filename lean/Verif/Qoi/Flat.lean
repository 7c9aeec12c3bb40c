import Verif.Qoi.Lemmas
/-! The encoder loop, flattened to a relation between the pixel list and the emitted bytes. -/
namespace Blend2D.Qoi

/-- `Enc c s ps bytes`: from state `s`, the pixels `ps` (in raster order) are encoded as `bytes`. -/
inductive Enc {σ} (c : Codec σ) : σ → List UInt32 → List UInt8 → Prop
  | nil (s) : Enc c s [] []
  | run (s) (run rest : List UInt32) (bytes : List UInt8) (hne : run ≠ [])
      (hsame : ∀ q ∈ run, c.same s (c.load q) = true) (h : Enc c s rest bytes) :
      Enc c s (run ++ rest) (emitRuns run.length run.length ++ bytes)
  | px (s) (q : UInt32) (rest : List UInt32) (bytes : List UInt8) (hns : c.same s (c.load q) = false)
      (h : Enc c (c.emit s (c.load q)).2 rest bytes) :
      Enc c s (q :: rest) ((c.emit s (c.load q)).1 ++ bytes)

theorem scanRun_spec (load : UInt32 → UInt32) (same : UInt32 → Bool) : ∀ (x : Nat) (cur : List UInt32) (p : UInt32),
    cur.length = x → ∃ run post, cur = run ++ post ∧ (∀ q ∈ run, same (load q) = true) ∧
      ((post = [] ∧ ∃ p', scanRun load same x cur p = some (0, [], p')) ∨
       (∃ q0 cur', post = q0 :: cur' ∧ same (load q0) = false ∧
          scanRun load same x cur p = some (cur'.length + 1, cur', load q0))) := by
  intro x
  induction x with
  | zero =>
    intro cur p h
    have : cur = [] := List.length_eq_zero_iff.mp h
    subst this
    exact ⟨[], [], rfl, by simp, Or.inl ⟨rfl, p, rfl⟩⟩
  | succ x ih =>
    intro cur p h
    match cur, h with
    | q :: cur, h =>
      simp only [List.length_cons, Nat.add_right_cancel_iff] at h
      unfold scanRun
      by_cases hq : same (load q) = true
      · rw [if_pos hq]
        obtain ⟨run, post, e, hs, hc⟩ := ih cur (load q) h
        refine ⟨q :: run, post, by simp [e], ?_, hc⟩
        intro y hy
        rcases List.mem_cons.mp hy with rfl | hy
        · exact hq
        · exact hs y hy
      · rw [if_neg hq]
        refine ⟨[], q :: cur, rfl, by simp, Or.inr ⟨q, cur, rfl, by simpa using hq, ?_⟩⟩
        rw [h]

theorem runLoop_spec (load : UInt32 → UInt32) (same : UInt32 → Bool) (w : Nat) : ∀ (h x : Nat)
    (cur : List UInt32) (rows : List (List UInt32)) (p : UInt32) (n : Nat),
    cur.length = x → rows.length + 1 = h → (∀ r ∈ rows, r.length = w) →
    ∃ run post, cur ++ rows.flatten = run ++ post ∧ (∀ q ∈ run, same (load q) = true) ∧
      ((post = [] ∧ ∃ h' cur' rows' p', runLoop load same w h x cur rows p n =
          some (0, h', cur', rows', p', n + run.length)) ∨
       (∃ q0 cur' rows', post = q0 :: (cur' ++ rows'.flatten) ∧ same (load q0) = false ∧
          (∀ r ∈ rows', r.length = w) ∧
          runLoop load same w h x cur rows p n =
            some (cur'.length + 1, rows'.length + 1, cur', rows', load q0, n + run.length))) := by
  intro h
  induction h with
  | zero => intro x cur rows p n _ h; omega
  | succ h ih =>
    intro x cur rows p n hx hh hr
    obtain ⟨run, post, e, hs, hc⟩ := scanRun_spec load same x cur p hx
    unfold runLoop
    rcases hc with ⟨hp, p', hscan⟩ | ⟨q0, cur', hp, hq0, hscan⟩
    · subst hp
      rw [List.append_nil] at e
      subst e
      rw [hscan]
      simp only [if_true, Nat.sub_zero]
      match rows, hh, hr with
      | [], hh, _ =>
        have : h = 0 := by simp at hh; omega
        subst this
        refine ⟨cur, [], by simp, hs, Or.inl ⟨rfl, 0, [], [], p', ?_⟩⟩
        simp [hx]
      | r :: rows, hh, hr =>
        simp only [List.length_cons] at hh
        have hne : h ≠ 0 := by omega
        rw [if_pos hne]
        obtain ⟨run2, post2, e2, hs2, hc2⟩ := ih w r rows p' (n + x) (hr r (by simp)) (by omega)
          (fun r' hr' => hr r' (by simp [hr']))
        refine ⟨cur ++ run2, post2, by simp [e2], ?_, ?_⟩
        · intro q hq
          rcases List.mem_append.mp hq with h | h
          · exact hs q h
          · exact hs2 q h
        · rw [List.length_append, hx, ← Nat.add_assoc]
          exact hc2
    · subst hp
      rw [hscan]
      simp only [Nat.add_eq_zero_iff, Nat.one_ne_zero, and_false, if_false]
      have hlen : x - (cur'.length + 1) = run.length := by
        have := congrArg List.length e
        simp at this; omega
      refine ⟨run, q0 :: (cur' ++ rows.flatten), by simp [e], hs, Or.inr ⟨q0, cur', rows, rfl, hq0, hr, ?_⟩⟩
      rw [hlen, hh]

/-- The encoder loop encodes all pixels, in raster order, and never reads outside the image. -/
theorem encLoop_spec {σ} (c : Codec σ) (w : Nat) (hw : 1 ≤ w) : ∀ (fuel x h : Nat) (cur : List UInt32)
    (rows : List (List UInt32)) (s : σ) (out : List UInt8),
    cur.length = x → 1 ≤ x → rows.length + 1 = h → (∀ r ∈ rows, r.length = w) →
    (cur ++ rows.flatten).length < fuel →
    ∃ bytes, encLoop c w fuel x h cur rows s out = some (out ++ bytes) ∧ Enc c s (cur ++ rows.flatten) bytes := by
  intro fuel
  induction fuel with
  | zero => intro x h cur rows s out _ _ _ _ h; omega
  | succ fuel ih =>
    intro x h cur rows s out hx hx1 hh hr hf
    match cur, hx with
    | [], hx => simp at hx; omega
    | q :: cur, hx =>
      -- the common tail
      have fin : ∀ (x h : Nat) (q : UInt32) (cur : List UInt32) (rows : List (List UInt32)) (out : List UInt8),
          cur.length + 1 = x → rows.length + 1 = h → (∀ r ∈ rows, r.length = w) →
          (cur ++ rows.flatten).length < fuel → c.same s (c.load q) = false →
          ∃ bytes,
            (if x - 1 ≠ 0 then
              encLoop c w fuel (x - 1) h cur rows (c.emit s (c.load q)).2 (out ++ (c.emit s (c.load q)).1)
            else if h - 1 = 0 then some (out ++ (c.emit s (c.load q)).1)
            else match rows with
              | [] => none
              | r :: rows =>
                encLoop c w fuel w (h - 1) r rows (c.emit s (c.load q)).2 (out ++ (c.emit s (c.load q)).1)) =
              some (out ++ bytes) ∧ Enc c s (q :: (cur ++ rows.flatten)) bytes := by
        intro x h q cur rows out h1 h2 h3 h4 h5
        by_cases hx0 : x - 1 ≠ 0
        · rw [if_pos hx0]
          obtain ⟨bytes, e, henc⟩ := ih (x - 1) h cur rows (c.emit s (c.load q)).2
            (out ++ (c.emit s (c.load q)).1) (by omega) (by omega) h2 h3 h4
          refine ⟨(c.emit s (c.load q)).1 ++ bytes, ?_, Enc.px s q _ _ h5 henc⟩
          rw [e, List.append_assoc]
        · rw [if_neg hx0]
          have hcur : cur = [] := List.length_eq_zero_iff.mp (by omega)
          subst hcur
          match rows, h2, h3, h4 with
          | [], h2, h3, h4 =>
            rw [if_pos (by simp at h2; omega)]
            refine ⟨(c.emit s (c.load q)).1 ++ [], by simp, Enc.px s q [] [] h5 (Enc.nil _)⟩
          | r :: rows, h2, h3, h4 =>
            simp only [List.length_cons] at h2
            rw [if_neg (by omega)]
            obtain ⟨bytes, e, henc⟩ := ih w (h - 1) r rows (c.emit s (c.load q)).2
              (out ++ (c.emit s (c.load q)).1) (h3 r (by simp)) hw (by omega)
              (fun r' hr' => h3 r' (by simp [hr'])) (by simpa using h4)
            refine ⟨(c.emit s (c.load q)).1 ++ bytes, ?_, ?_⟩
            · simp only; rw [e, List.append_assoc]
            · have := Enc.px s q _ _ h5 henc
              simpa using this
      simp only [List.length_cons] at hx
      simp only [List.length_append, List.length_cons] at hf
      unfold encLoop
      simp only
      by_cases hsame : c.same s (c.load q) = true
      · rw [if_pos hsame]
        obtain ⟨run, post, e, hs, hc⟩ := runLoop_spec c.load (c.same s) w h (x - 1) cur rows (c.load q) 1
          (by omega) hh hr
        have hall : ∀ y ∈ q :: run, c.same s (c.load y) = true := by
          intro y hy
          rcases List.mem_cons.mp hy with rfl | hy
          · exact hsame
          · exact hs y hy
        have hpx : q :: cur ++ rows.flatten = (q :: run) ++ post := by simp [e]
        rcases hc with ⟨hp, h', cur', rows', p', hrl⟩ | ⟨q0, cur', rows', hp, hq0, hr', hrl⟩
        · rw [hrl]
          simp only [if_true]
          subst hp
          refine ⟨emitRuns (q :: run).length (q :: run).length ++ [], ?_, ?_⟩
          · simp [Nat.add_comm]
          · rw [hpx]
            exact Enc.run s _ _ _ (by simp) hall (Enc.nil s)
        · rw [hrl]
          simp only [Nat.add_eq_zero_iff, Nat.one_ne_zero, and_false, if_false]
          have hlen := congrArg List.length e
          rw [hp] at hlen
          simp only [List.length_append, List.length_cons] at hlen
          obtain ⟨bytes, e2, henc⟩ := fin (cur'.length + 1) (rows'.length + 1) q0 cur' rows'
            (out ++ emitRuns (1 + run.length) (1 + run.length)) rfl rfl hr'
            (by simp only [List.length_append]; omega) hq0
          refine ⟨emitRuns (q :: run).length (q :: run).length ++ bytes, ?_, ?_⟩
          · exact e2.trans (by simp [Nat.add_comm])
          · rw [hpx, hp]
            exact Enc.run s _ _ _ (by simp) hall henc
      · rw [if_neg hsame]
        have := fin x h q cur rows out hx hh hr (by simp only [List.length_append]; omega) (by simpa using hsame)
        exact this

/-- The whole image. -/
theorem encodeData_spec {σ} (c : Codec σ) (s : σ) (w h : Nat) (rows : List (List UInt32)) (hw : 1 ≤ w) (hh : 1 ≤ h)
    (hl : rows.length = h) (hr : ∀ r ∈ rows, r.length = w) :
    ∃ bytes, encodeData c s w h rows = some bytes ∧ Enc c s rows.flatten bytes := by
  match rows, hl, hr with
  | [], hl, _ => simp at hl; omega
  | r :: rows', hl, hr =>
    unfold encodeData pixelCount
    obtain ⟨bytes, e, henc⟩ := encLoop_spec c w hw ((r :: rows').flatten.length + 1) w h r rows' s []
      (hr r (by simp)) hw hl (fun r' hr' => hr r' (by simp [hr'])) (by simp)
    exact ⟨bytes, by simpa using e, by simpa using henc⟩

theorem emitRuns_len : ∀ (fuel n : Nat), n ≤ fuel → 1 ≤ n →
    1 ≤ (emitRuns fuel n).length ∧ (emitRuns fuel n).length ≤ n := by
  intro fuel
  induction fuel with
  | zero => intro n h h1; omega
  | succ fuel ih =>
    intro n h h1
    unfold emitRuns
    simp only
    by_cases hn : n - min n 62 ≠ 0
    · rw [if_pos hn]
      have := ih (n - min n 62) (by omega) (by omega)
      simp only [List.length_cons]; omega
    · rw [if_neg hn]; simp; omega

/-- Size bound: if every pixel is emitted in at most `k` bytes (`k ≥ 1`), so is the image on average. -/
theorem Enc.length_le {σ} {c : Codec σ} (k : Nat) (hk : 1 ≤ k) (hc : ∀ s p, (c.emit s p).1.length ≤ k)
    {s : σ} {ps : List UInt32} {bytes : List UInt8} (h : Enc c s ps bytes) : bytes.length ≤ ps.length * k := by
  induction h with
  | nil => simp
  | run s run rest bytes hne _ _ ih =>
    have hl : 1 ≤ run.length := List.length_pos_iff.mpr hne
    have := (emitRuns_len run.length run.length (Nat.le_refl _) hl).2
    have h2 : run.length * 1 ≤ run.length * k := Nat.mul_le_mul_left _ hk
    simp only [List.length_append, Nat.add_mul]; omega
  | px s q rest bytes _ _ ih =>
    have := hc s (c.load q)
    simp only [List.length_append, List.length_cons, Nat.add_mul, Nat.one_mul]; omega

/-- Non-empty input gives non-empty output. -/
theorem Enc.length_pos {σ} {c : Codec σ} (hc : ∀ s p, 1 ≤ (c.emit s p).1.length)
    {s : σ} {ps : List UInt32} {bytes : List UInt8} (h : Enc c s ps bytes) (hne : ps ≠ []) : 1 ≤ bytes.length := by
  cases h with
  | nil => simp at hne
  | run s run rest bytes hne' _ _ =>
    have hl : 1 ≤ run.length := List.length_pos_iff.mpr hne'
    have := (emitRuns_len run.length run.length (Nat.le_refl _) hl).1
    simp only [List.length_append]; omega
  | px s q rest bytes _ _ =>
    have := hc s (c.load q)
    simp only [List.length_append]; omega

end Blend2D.Qoi
