import Verif.ThreadPool.Model

/-!
# Thread pool: properties (C22)

Specification vocabulary: a thread is `idle` (in a slot of the pool), `held` (handed
to a user), or `quit` (told to quit).  C22 says every created thread is in exactly
one of those places at any time, the pool never hands out a thread somebody else
holds, the counters agree, and the limit of 64 threads is respected.
-/

namespace Blend2D.ThreadPool

/-- The threads sitting in the pool. -/
def Pool.idle (p : Pool) : List Nat := p.slots.filterMap id

/-! ## Scans -/

theorem relScan_spec (n : Nat) : ∀ (ss : List (Option Nat)) (buf : List Nat) (i : Nat),
    i < n → n - i ≤ buf.length → (ss.filterMap id).length + (n - i) ≤ ss.length →
    ∃ ss', relScan n (ss.map Option.isSome) ss buf i = some (ss'.map Option.isSome, ss', n) ∧
      ss'.length = ss.length ∧ (ss'.filterMap id).Perm (ss.filterMap id ++ buf.take (n - i)) := by
  intro ss
  induction ss with
  | nil => intro buf i hi _ hc; simp at hc; omega
  | cons s ss ih =>
    intro buf i hi hb hc
    cases s with
    | some t =>
      simp only [List.filterMap_cons, id_eq, List.length_cons] at hc
      obtain ⟨ss', h1, h2, h3⟩ := ih buf i hi hb (by omega)
      refine ⟨some t :: ss', ?_, by simp [h2], ?_⟩
      · simp [relScan, h1]
      · simpa using h3
    | none =>
      simp only [List.filterMap_cons, id_eq, List.length_cons] at hc
      cases buf with
      | nil => simp at hb; omega
      | cons t buf =>
        by_cases h : i + 1 ≥ n
        · refine ⟨some t :: ss, ?_, by simp, ?_⟩
          · have : i + 1 = n := by omega
            simp [relScan, this]
          · have : n - i = 1 := by omega
            simp only [List.filterMap_cons, id_eq, this, List.take_succ_cons, List.take_zero]
            exact (List.perm_append_singleton t _).symm
        · simp only [List.length_cons] at hb
          obtain ⟨ss', h1, h2, h3⟩ := ih buf (i + 1) (by omega) (by omega) (by omega)
          refine ⟨some t :: ss', ?_, by simp [h2], ?_⟩
          · simp [relScan, h, h1]
          · have e : n - i = (n - (i + 1)) + 1 := by omega
            simp only [List.filterMap_cons, id_eq]
            rw [e, List.take_succ_cons]
            exact (h3.cons t).trans List.perm_middle.symm

theorem takeScan_spec : ∀ (ss : List (Option Nat)) (want : Nat), 1 ≤ want →
    ∃ ss' ts, takeScan (ss.map Option.isSome) ss want = some (ss'.map Option.isSome, ss', ts) ∧
      ss'.length = ss.length ∧ ts.length = min want (ss.filterMap id).length ∧
      (ss.filterMap id).Perm (ss'.filterMap id ++ ts) := by
  intro ss
  induction ss with
  | nil => intro want hw; exact ⟨[], [], by simp [takeScan]⟩
  | cons s ss ih =>
    intro want hw
    cases s with
    | none =>
      obtain ⟨ss', ts, h1, h2, h3, h4⟩ := ih want hw
      exact ⟨none :: ss', ts, by simp [takeScan, h1], by simp [h2], by simpa using h3, by simpa using h4⟩
    | some t =>
      by_cases h : want = 1
      · subst h
        refine ⟨none :: ss, [t], by simp [takeScan], by simp, ?_, ?_⟩
        · simp only [List.length_cons, List.length_nil, List.filterMap_cons, id_eq]; omega
        · simp only [List.filterMap_cons, id_eq]
          exact (List.perm_append_singleton t _).symm
      · obtain ⟨ss', ts, h1, h2, h3, h4⟩ := ih (want - 1) (by omega)
        refine ⟨none :: ss', t :: ts, by simp [takeScan, h, h1], by simp [h2], ?_, ?_⟩
        · simp only [List.length_cons, List.filterMap_cons, id_eq, h3]; omega
        · simp only [List.filterMap_cons, id_eq]
          exact (h4.cons t).trans List.perm_middle.symm

theorem cleanupScan_spec : ∀ (ss : List (Option Nat)),
    cleanupScan (ss.map Option.isSome) ss = some (ss.map (fun _ => none), ss.filterMap id) := by
  intro ss
  induction ss with
  | nil => rfl
  | cons s ss ih => cases s <;> simp [cleanupScan, ih]

theorem createLoop_spec : ∀ (want next : Nat) (oracle : List Bool),
    ∃ k, (createLoop next want oracle).1 = List.range' next k ∧ k ≤ want ∧
      ((createLoop next want oracle).2 = false → k = want) ∧
      (oracle.head? = some true → 0 < want → 0 < k) := by
  intro want
  induction want with
  | zero => intro next oracle; exact ⟨0, by simp [createLoop]⟩
  | succ want ih =>
    intro next oracle
    match oracle with
    | true :: oracle =>
      obtain ⟨k, h1, h2, h3, _⟩ := ih (next + 1) oracle
      refine ⟨k + 1, ?_, by omega, ?_, by omega⟩
      · simp [createLoop, h1, List.range'_succ]
      · intro h; simp only [createLoop] at h; have := h3 h; omega
    | false :: oracle => exact ⟨0, by simp [createLoop]⟩
    | [] => exact ⟨0, by simp [createLoop]⟩

/-- If enough creations succeed, all succeed. -/
theorem createLoop_all : ∀ (want next : Nat) (oracle : List Bool),
    (∀ i < want, oracle[i]? = some true) → createLoop next want oracle = (List.range' next want, false) := by
  intro want
  induction want with
  | zero => intro next oracle _; simp [createLoop]
  | succ want ih =>
    intro next oracle h
    match oracle with
    | true :: oracle =>
      have := ih (next + 1) oracle (fun i hi => by simpa using h (i + 1) (by omega))
      simp [createLoop, this, List.range'_succ]
    | false :: oracle => have := h 0 (by omega); simp at this
    | [] => have := h 0 (by omega); simp at this

/-! ## The invariant -/

/-- The pool's data structures are consistent. -/
structure Pool.Wf (p : Pool) : Prop where
  slots : p.slots.length = maxThreads
  bits : p.bits = p.slots.map Option.isSome
  count : p.pooled = p.idle.length

/-- Everything that holds between two calls. -/
structure Inv (w : World) : Prop where
  wf : w.pool.Wf
  acquired : w.pool.acquired = w.held.length
  limit : w.pool.pooled + w.pool.acquired ≤ maxThreads
  nodup : (w.pool.idle ++ w.held ++ w.quit).Nodup
  fresh : ∀ t ∈ w.pool.idle ++ w.held ++ w.quit, t < w.next

theorem Pool.wf_empty : Pool.empty.Wf := by
  refine ⟨by simp [Pool.empty], by simp [Pool.empty], ?_⟩
  simp [Pool.empty, Pool.idle]

theorem Pool.idle_empty : Pool.empty.idle = [] := by
  simp [Pool.empty, Pool.idle]

theorem release_spec {p : Pool} (h : p.Wf) (buf : List Nat) (n : Nat) (hn : 0 < n)
    (hb : n ≤ buf.length) (hc : p.pooled + n ≤ maxThreads) :
    ∃ p', release p buf n = some p' ∧ p'.Wf ∧ p'.acquired = p.acquired - n ∧
      p'.pooled = p.pooled + n ∧ p'.idle.Perm (p.idle ++ buf.take n) := by
  have hc' : (p.slots.filterMap id).length + (n - 0) ≤ p.slots.length := by
    rw [h.slots, show (p.slots.filterMap id).length = p.pooled from h.count.symm]; omega
  obtain ⟨ss', h1, h2, h3⟩ := relScan_spec n p.slots buf 0 hn (by omega) hc'
  rw [Nat.sub_zero] at h3
  refine ⟨⟨ss'.map Option.isSome, ss', p.pooled + n, p.acquired - n⟩, ?_, ⟨?_, rfl, ?_⟩, rfl, rfl, h3⟩
  · simp [release, h.bits, h1]
  · exact h2.trans h.slots
  · show p.pooled + n = (ss'.filterMap id).length
    rw [h3.length_eq, List.length_append, List.length_take, h.count, Pool.idle]; omega

theorem acquireTail_spec {p : Pool} (h : p.Wf) (made : List Nat) (n : Nat) (reason : Reason)
    (hm : made.length ≤ n) :
    ∃ r ts, acquireTail p made n reason = some r ∧ r.pool.Wf ∧ r.got = made ++ ts ∧
      r.made = made.length ∧ r.reason = reason ∧
      r.pool.acquired = p.acquired + r.got.length ∧ r.pool.pooled + ts.length = p.pooled ∧
      ts.length = min (n - made.length) p.pooled ∧ p.idle.Perm (r.pool.idle ++ ts) := by
  by_cases hlt : made.length < n
  · obtain ⟨ss', ts, h1, h2, h3, h4⟩ := takeScan_spec p.slots (n - made.length) (by omega)
    have hcount : p.pooled = (p.slots.filterMap id).length := h.count
    have hl : (p.slots.filterMap id).length = (ss'.filterMap id).length + ts.length := by
      rw [h4.length_eq, List.length_append]
    refine ⟨⟨⟨ss'.map Option.isSome, ss', p.pooled - ts.length, p.acquired + (made ++ ts).length⟩,
      made ++ ts, made.length, reason⟩, ts, ?_, ?_, rfl, rfl, rfl, rfl, ?_, ?_, ?_⟩
    · simp only [acquireTail, if_pos hlt, h.bits, h1]; rfl
    · refine ⟨h2.trans h.slots, rfl, ?_⟩
      show p.pooled - ts.length = (ss'.filterMap id).length
      omega
    · show p.pooled - ts.length + ts.length = p.pooled; omega
    · rw [h3, hcount]
    · exact h4
  · refine ⟨⟨{ p with acquired := p.acquired + made.length }, made, made.length, reason⟩, [], ?_, ?_,
      (List.append_nil _).symm, rfl, rfl, rfl, rfl, ?_, ?_⟩
    · simp only [acquireTail, if_neg hlt]
    · exact ⟨h.slots, h.bits, h.count⟩
    · simp; omega
    · simp [Pool.idle]

/-- What `acquire` promises, in terms of lists of threads. -/
structure AcqOk (p : Pool) (next n : Nat) (r : AcqResult) : Prop where
  wf : r.pool.Wf
  acquired : r.pool.acquired = p.acquired + r.got.length
  limit : r.pool.pooled + r.pool.acquired ≤ maxThreads
  /-- every thread that was idle or has just been created is now idle or handed out -/
  perm : (p.idle ++ List.range' next r.made).Perm (r.pool.idle ++ r.got)
  bound : r.got.length ≤ n

/-- The one call that goes wrong, `threadpool.cpp:296-303`: with the
"all or nothing" flag, releasing what was created when nothing was created. -/
def FirstCreationFails (p : Pool) (n : Nat) (allOrNothing : Bool) (oracle : List Bool) : Prop :=
  allOrNothing = true ∧ p.pooled < n ∧ n ≤ maxThreads - p.acquired ∧ oracle.head? ≠ some true

theorem acquire_spec {p : Pool} (h : p.Wf) (hl : p.pooled + p.acquired ≤ maxThreads)
    (next n : Nat) (aon : Bool) (oracle : List Bool) (garbage : List Nat)
    (hok : ¬ FirstCreationFails p n aon oracle) :
    ∃ r, acquire p next n aon oracle garbage = some r ∧ AcqOk p next n r ∧
      (aon = true → r.got.length = n ∨ r.got = []) ∧
      ((∀ i < n - p.pooled, oracle[i]? = some true) →
        r.reason ≠ .createFailed ∧
        (aon = false → r.got.length = min n (maxThreads - p.acquired)) ∧
        (aon = true → n ≤ maxThreads - p.acquired → r.got.length = n)) := by
  by_cases hn : n > p.pooled
  · by_cases hx : n - p.pooled > maxThreads - (p.acquired + p.pooled) ∧ aon = true
    · refine ⟨⟨p, [], 0, .exhausted⟩, ?_, ⟨h, rfl, hl, by simp, by simp⟩, fun _ => Or.inr rfl, ?_⟩
      · simp only [acquire, if_pos hn]
        rw [if_pos hx]
      · intro _
        refine ⟨by simp, ?_, ?_⟩
        · intro hf; rw [hx.2] at hf; cases hf
        · intro _ hh; omega
    · obtain ⟨create, hcreate⟩ : ∃ c, c = (if n - p.pooled > maxThreads - (p.acquired + p.pooled)
          then maxThreads - (p.acquired + p.pooled) else n - p.pooled) := ⟨_, rfl⟩
      have hcr : create ≤ n - p.pooled ∧ create ≤ maxThreads - (p.acquired + p.pooled) ∧
          (create = n - p.pooled ∨ create = maxThreads - (p.acquired + p.pooled)) := by
        rw [hcreate]; split <;> omega
      have hca : aon = true → create = n - p.pooled := by
        intro ha
        rw [hcreate, if_neg]
        intro hgt; exact hx ⟨hgt, ha⟩
      obtain ⟨k, hk, hkw, hkf, hkp⟩ := createLoop_spec create next oracle
      have hklen : (createLoop next create oracle).1.length = k := by rw [hk]; simp
      by_cases hfail : (createLoop next create oracle).2 = true
      · by_cases ha : aon = true
        · -- all or nothing, creation failed: give back what was created
          have hc' := hca ha
          have hkpos : 0 < k := by
            apply hkp
            · by_cases hh : oracle.head? = some true
              · exact hh
              · refine absurd ⟨ha, hn, ?_, hh⟩ hok
                by_cases hgt : n - p.pooled > maxThreads - (p.acquired + p.pooled)
                · exact absurd ⟨hgt, ha⟩ hx
                · omega
            · omega
          have hwf : Pool.Wf { p with acquired := p.acquired + k } := ⟨h.slots, h.bits, h.count⟩
          obtain ⟨p', e1, e2, e3, e4, e5⟩ := release_spec hwf
            (List.range' next k ++ garbage.drop k) k hkpos (by simp)
            (by show p.pooled + k ≤ maxThreads; omega)
          refine ⟨⟨p', [], k, .createFailed⟩, ?_, ⟨e2, ?_, ?_, ?_, by simp⟩, fun _ => Or.inr rfl, ?_⟩
          · simp only [acquire, if_pos hn]
            rw [if_neg hx, ← hcreate, if_pos hfail, if_pos ha]
            simp only [hk, List.length_range', e1]; rfl
          · rw [e3]; simp
          · rw [e3, e4]; simp; omega
          · simp only [List.append_nil]
            have : (List.range' next k ++ garbage.drop k).take k = List.range' next k := by
              rw [List.take_append_of_le_length (by simp), List.take_of_length_le (by simp)]
            rw [this] at e5
            exact e5.symm
          · intro hall
            exfalso
            rw [createLoop_all create next oracle (fun i hi => hall i (by omega))] at hfail
            cases hfail
        · obtain ⟨r, ts, e1, e2, e3, e4, e5, e6, e7, e8, e9⟩ :=
            acquireTail_spec h (createLoop next create oracle).1 n .createFailed (by omega)
          refine ⟨r, ?_, ⟨e2, e6, ?_, ?_, ?_⟩, fun hh => absurd hh ha, ?_⟩
          · simp only [acquire, if_pos hn]
            rw [if_neg hx, ← hcreate, if_pos hfail, if_neg ha, e1]
          · rw [e6, e3, List.length_append, hklen]; omega
          · rw [e4, hklen, e3, hk]
            refine (e9.append_right _).trans ?_
            rw [List.append_assoc]
            exact List.Perm.append_left _ List.perm_append_comm
          · rw [e3, List.length_append, e8, hklen]; omega
          · intro hall
            exfalso
            rw [createLoop_all create next oracle (fun i hi => hall i (by omega))] at hfail
            cases hfail
      · have hkeq := hkf (by simpa using hfail)
        obtain ⟨r, ts, e1, e2, e3, e4, e5, e6, e7, e8, e9⟩ :=
          acquireTail_spec h (createLoop next create oracle).1 n .success (by omega)
        have hlen : r.got.length = k + min (n - k) p.pooled := by
          rw [e3, List.length_append, e8, hklen]
        refine ⟨r, ?_, ⟨e2, e6, ?_, ?_, ?_⟩, ?_, ?_⟩
        · simp only [acquire, if_pos hn]
          rw [if_neg hx, ← hcreate, if_neg hfail, e1]
        · rw [e6, e3, List.length_append, hklen]; omega
        · rw [e4, hklen, e3, hk]
          refine (e9.append_right _).trans ?_
          rw [List.append_assoc]
          exact List.Perm.append_left _ List.perm_append_comm
        · rw [e3, List.length_append, e8, hklen]; omega
        · intro ha; have := hca ha; left; rw [hlen]; omega
        · intro _
          refine ⟨by rw [e5]; simp, ?_, ?_⟩
          · intro _; rw [hlen]; omega
          · intro ha _; have := hca ha; rw [hlen]; omega
  · obtain ⟨r, ts, e1, e2, e3, e4, e5, e6, e7, e8, e9⟩ :=
      acquireTail_spec h [] n .success (by simp)
    have hlen : r.got.length = min n p.pooled := by rw [e3]; simpa using e8
    refine ⟨r, ?_, ⟨e2, e6, ?_, ?_, ?_⟩, ?_, ?_⟩
    · simp only [acquire, if_neg hn]; exact e1
    · simp only [List.nil_append] at e3; rw [e6, e3]; omega
    · simp only [List.nil_append] at e3
      rw [e4, e3]; simpa using e9
    · rw [hlen]; omega
    · intro _; left; rw [hlen]; omega
    · intro _
      refine ⟨by rw [e5]; simp, ?_, ?_⟩
      · intro _; rw [hlen]; omega
      · intro _ _; rw [hlen]; omega

/-- Calls whose outcome is covered: callers behave, and not the failing call above. -/
def Op.Ok (w : World) (op : Op) : Prop :=
  op.Legal w ∧ match op with
    | .acquire n aon oracle _ => ¬ FirstCreationFails w.pool n aon oracle
    | _ => True

/-- Every history of calls. -/
inductive Reach : World → Prop
  | init : Reach ⟨Pool.empty, [], [], 0⟩
  | step {w w' : World} {op : Op} : Reach w → op.Ok w → step w op = some w' → Reach w'

theorem filter_perm {l ts : List Nat} (hl : l.Nodup) (ht : ts.Nodup) (hs : ∀ t ∈ ts, t ∈ l) :
    (l.filter (fun t => !ts.contains t) ++ ts).Perm l := by
  have h1 : (l.filter (fun t => !ts.contains t) ++ l.filter (fun t => ts.contains t)).Perm l := by
    have := List.filter_append_perm (fun t => ts.contains t) l
    exact List.perm_append_comm.trans this
  have h2 : ts.Perm (l.filter (fun t => ts.contains t)) := by
    rw [List.perm_ext_iff_of_nodup ht (hl.sublist List.filter_sublist)]
    intro a
    simp only [List.mem_filter, List.contains_iff_mem]
    exact ⟨fun ha => ⟨hs a ha, ha⟩, fun ha => ha.2⟩
  exact (List.Perm.append_left _ h2).trans h1

theorem step_ok {w : World} (hi : Inv w) {op : Op} (hop : op.Ok w) :
    ∃ w', step w op = some w' ∧ Inv w' := by
  cases op with
  | acquire n aon oracle garbage =>
    obtain ⟨r, e1, e2, _, _⟩ := acquire_spec hi.wf hi.limit w.next n aon oracle garbage hop.2
    refine ⟨_, by simp only [step, e1]; rfl, ⟨e2.wf, ?_, e2.limit, ?_, ?_⟩⟩
    · show r.pool.acquired = (w.held ++ r.got).length
      rw [e2.acquired, hi.acquired, List.length_append]
    · show (r.pool.idle ++ (w.held ++ r.got) ++ w.quit).Nodup
      have hp : (r.pool.idle ++ (w.held ++ r.got) ++ w.quit).Perm
          ((w.pool.idle ++ w.held ++ w.quit) ++ List.range' w.next r.made) := by
        have := e2.perm
        have a1 : (r.pool.idle ++ (w.held ++ r.got) ++ w.quit).Perm
            ((r.pool.idle ++ r.got) ++ (w.held ++ w.quit)) := by
          simp only [List.append_assoc]
          refine List.Perm.append_left _ ?_
          rw [← List.append_assoc, ← List.append_assoc]
          exact List.Perm.append_right _ List.perm_append_comm
        have a2 := this.symm.append_right (w.held ++ w.quit)
        refine a1.trans (a2.trans ?_)
        simp only [List.append_assoc]
        refine List.Perm.append_left _ ?_
        rw [← List.append_assoc w.held]
        exact List.perm_append_comm
      rw [hp.nodup_iff, List.nodup_append]
      refine ⟨hi.nodup, List.nodup_range', ?_⟩
      intro a ha b hb
      have := hi.fresh a ha
      rw [List.mem_range'_1] at hb
      omega
    · intro t ht
      have ht' : t ∈ r.pool.idle ++ r.got ∨ t ∈ w.held ∨ t ∈ w.quit := by
        simp only [List.mem_append] at ht ⊢
        rcases ht with (a | b | c) | d
        · exact Or.inl (Or.inl a)
        · exact Or.inr (Or.inl b)
        · exact Or.inl (Or.inr c)
        · exact Or.inr (Or.inr d)
      show t < w.next + r.made
      rcases ht' with a | b | c
      · rcases List.mem_append.1 (e2.perm.mem_iff.2 a) with a | a
        · have := hi.fresh t (by simp [a]); omega
        · rw [List.mem_range'_1] at a; omega
      · have := hi.fresh t (by simp [b]); omega
      · have := hi.fresh t (by simp [c]); omega
  | release ts =>
    obtain ⟨⟨hne, hnd, hsub⟩, _⟩ := hop
    have hheld : w.held.Nodup := by
      have := hi.nodup; simp only [List.nodup_append] at this; exact this.1.2.1
    have hperm := filter_perm hheld hnd hsub
    have hlen : (w.held.filter (fun t => !ts.contains t)).length + ts.length = w.held.length := by
      rw [← hperm.length_eq, List.length_append]
    have hpos : 0 < ts.length := List.length_pos_iff.2 hne
    obtain ⟨p', e1, e2, e3, e4, e5⟩ := release_spec hi.wf ts ts.length hpos (Nat.le_refl _)
      (by have := hi.limit; have := hi.acquired; omega)
    rw [List.take_length] at e5
    have hp : (p'.idle ++ w.held.filter (fun t => !ts.contains t) ++ w.quit).Perm
        (w.pool.idle ++ w.held ++ w.quit) := by
      refine List.Perm.append_right _ ((e5.append_right _).trans ?_)
      rw [List.append_assoc]
      exact List.Perm.append_left _ (List.perm_append_comm.trans hperm)
    refine ⟨_, by simp only [step, e1]; rfl, ⟨e2, ?_, ?_, ?_, ?_⟩⟩
    · show p'.acquired = _
      rw [e3, hi.acquired]; show w.held.length - ts.length = (w.held.filter _).length; omega
    · show p'.pooled + p'.acquired ≤ _
      have := hi.limit; have := hi.acquired; rw [e3, e4]; omega
    · exact hp.nodup_iff.2 hi.nodup
    · intro t ht; exact hi.fresh t (hp.mem_iff.1 ht)
  | cleanup =>
    by_cases hz : w.pool.pooled = 0
    · exact ⟨{ w with quit := w.quit ++ [] }, by simp [step, cleanup, hz],
        ⟨hi.wf, hi.acquired, hi.limit, by simpa using hi.nodup, by simpa using hi.fresh⟩⟩
    · have hw := hi.wf
      have e := cleanupScan_spec w.pool.slots
      have hidle : (w.pool.slots.map (fun _ => (none : Option Nat))).filterMap id = [] := by
        rw [List.filterMap_eq_nil_iff]; simp
      refine ⟨⟨⟨(w.pool.slots.map Option.isSome).map (fun _ => false), w.pool.slots.map (fun _ => none),
        w.pool.pooled - (w.pool.slots.filterMap id).length, w.pool.acquired⟩, w.held,
        w.quit ++ w.pool.slots.filterMap id, w.next⟩,
        by simp only [step, cleanup, if_neg hz, hw.bits, e]; rfl, ⟨⟨?_, ?_, ?_⟩, hi.acquired, ?_, ?_, ?_⟩⟩
      · simpa using hw.slots
      · simp [List.map_map, Function.comp_def]
      · show w.pool.pooled - (w.pool.slots.filterMap id).length = _
        have := hw.count
        simp only [Pool.idle] at this ⊢
        rw [hidle]; simp; omega
      · have := hi.limit
        show w.pool.pooled - _ + w.pool.acquired ≤ _; omega
      · show (Pool.idle _ ++ w.held ++ (w.quit ++ w.pool.slots.filterMap id)).Nodup
        simp only [Pool.idle, hidle, List.nil_append]
        have hp : (w.held ++ (w.quit ++ w.pool.slots.filterMap id)).Perm
            (w.pool.idle ++ w.held ++ w.quit) := by
          rw [← List.append_assoc, List.append_assoc w.pool.idle]
          exact List.perm_append_comm
        exact hp.nodup_iff.2 hi.nodup
      · intro t ht
        apply hi.fresh
        simp only [Pool.idle, hidle, List.nil_append, List.mem_append] at ht ⊢
        rcases ht with a | a | a
        · exact Or.inl (Or.inr a)
        · exact Or.inr a
        · exact Or.inl (Or.inl a)

theorem Reach.inv {w : World} (h : Reach w) : Inv w := by
  induction h with
  | init =>
    refine ⟨Pool.wf_empty, rfl, by simp [Pool.empty], ?_, ?_⟩ <;> simp [Pool.idle_empty]
  | step hr hop hs ih =>
    obtain ⟨w'', e, hi⟩ := step_ok ih hop
    rw [hs] at e; cases e; exact hi

/-! ## The property -/

/-- **C22.** In every history, every covered call completes without undefined
behaviour; every thread ever created is in at most one place (idle in the pool,
held by one user, or told to quit); the number of threads in use never exceeds 64;
and `pooled_thread_count` is the number of idle threads.

Partial: histories in which an all-or-nothing acquisition fails to create its very
first thread are excluded (`C22_all_or_nothing_hands_out_garbage` shows why). -/
theorem C22_threads_owned_once_partial {w : World} (h : Reach w) :
    (∀ op : Op, op.Ok w → ∃ w', step w op = some w' ∧ Reach w') ∧
    (w.pool.idle ++ w.held ++ w.quit).Nodup ∧
    (∀ t ∈ w.pool.idle ++ w.held ++ w.quit, t < w.next) ∧
    w.pool.pooled = w.pool.idle.length ∧
    w.pool.idle.length + w.held.length ≤ 64 := by
  have hi := h.inv
  refine ⟨?_, hi.nodup, hi.fresh, hi.wf.count, ?_⟩
  · intro op hop
    obtain ⟨w', e, _⟩ := step_ok hi hop
    exact ⟨w', e, Reach.step h hop e⟩
  · have := hi.limit; rw [hi.wf.count, hi.acquired] at this; exact this

/-- **C22.** No thread is lost: everything that was created is idle, held or quit. -/
theorem C22_no_thread_lost_partial {w : World} (h : Reach w) :
    ∀ t, t < w.next → t ∈ w.pool.idle ++ w.held ++ w.quit := by
  induction h with
  | init => intro t ht; simp at ht
  | step hr hop hs ih =>
    rename_i w w' op
    have hi := hr.inv
    cases op with
    | acquire n aon oracle garbage =>
      obtain ⟨r, e1, e2, _, _⟩ := acquire_spec hi.wf hi.limit w.next n aon oracle garbage hop.2
      simp only [step, e1] at hs
      cases hs
      intro t ht
      have ht : t < w.next + r.made := ht
      show t ∈ r.pool.idle ++ (w.held ++ r.got) ++ w.quit
      have key : t ∈ w.pool.idle ++ List.range' w.next r.made → t ∈ r.pool.idle ++ r.got :=
        e2.perm.mem_iff.1
      by_cases hlt : t < w.next
      · have := ih t hlt
        simp only [List.mem_append] at this key ⊢
        rcases this with (a | a) | a
        · rcases key (Or.inl a) with b | b
          · exact Or.inl (Or.inl b)
          · exact Or.inl (Or.inr (Or.inr b))
        · exact Or.inl (Or.inr (Or.inl a))
        · exact Or.inr a
      · have : t ∈ List.range' w.next r.made := by rw [List.mem_range'_1]; omega
        have := key (List.mem_append.2 (Or.inr this))
        simp only [List.mem_append] at this ⊢
        rcases this with b | b
        · exact Or.inl (Or.inl b)
        · exact Or.inl (Or.inr (Or.inr b))
    | release ts =>
      obtain ⟨⟨hne, hnd, hsub⟩, _⟩ := hop
      have hheld : w.held.Nodup := by
        have := hi.nodup; simp only [List.nodup_append] at this; exact this.1.2.1
      have hperm := filter_perm hheld hnd hsub
      have hlen : (w.held.filter (fun t => !ts.contains t)).length + ts.length = w.held.length := by
        rw [← hperm.length_eq, List.length_append]
      obtain ⟨p', e1, e2, e3, e4, e5⟩ := release_spec hi.wf ts ts.length
        (List.length_pos_iff.2 hne) (Nat.le_refl _)
        (by have := hi.limit; have := hi.acquired; omega)
      rw [List.take_length] at e5
      simp only [step, e1] at hs
      cases hs
      intro t ht
      have := ih t ht
      show t ∈ p'.idle ++ w.held.filter _ ++ w.quit
      simp only [List.mem_append, e5.mem_iff] at this ⊢
      rcases this with (a | a) | a
      · exact Or.inl (Or.inl (Or.inl a))
      · rcases List.mem_append.1 (hperm.mem_iff.2 a) with b | b
        · exact Or.inl (Or.inr b)
        · exact Or.inl (Or.inl (Or.inr b))
      · exact Or.inr a
    | cleanup =>
      by_cases hz : w.pool.pooled = 0
      · simp only [step, cleanup, hz] at hs
        cases hs
        intro t ht
        have := ih t ht
        simpa using this
      · simp only [step, cleanup, if_neg hz, hi.wf.bits, cleanupScan_spec] at hs
        cases hs
        intro t ht
        have := ih t ht
        simp only [List.mem_append] at this ⊢
        rcases this with (a | a) | a
        · exact Or.inr (Or.inr a)
        · exact Or.inl (Or.inr a)
        · exact Or.inr (Or.inl a)

/-- **C22.** What one acquisition returns: at most `n` threads, all different, none of
them held by anyone before, none told to quit, all really created; afterwards exactly
the previous holdings plus these are held.  Without creation failures an ordinary
request gets `min n (64 - already held)` threads and an all-or-nothing request gets
all `n` whenever they fit. With all-or-nothing the answer is always `n` or none. -/
theorem C22_acquire_partial {w : World} (h : Reach w) (n : Nat) (aon : Bool) (oracle : List Bool)
    (garbage : List Nat) (hok : Op.Ok w (.acquire n aon oracle garbage)) :
    ∃ w' got, step w (.acquire n aon oracle garbage) = some w' ∧
      w'.held = w.held ++ got ∧ w'.quit = w.quit ∧
      got.length ≤ n ∧ got.Nodup ∧ (∀ t ∈ got, t ∉ w.held ∧ t ∉ w.quit ∧ t < w'.next) ∧
      (aon = true → got.length = n ∨ got = []) ∧
      ((∀ i < n - w.pool.pooled, oracle[i]? = some true) →
        (aon = false → got.length = min n (64 - w.held.length)) ∧
        (aon = true → n ≤ 64 - w.held.length → got.length = n)) := by
  have hi := h.inv
  obtain ⟨r, e1, e2, e3, e4⟩ := acquire_spec hi.wf hi.limit w.next n aon oracle garbage hok.2
  obtain ⟨w', e, hi'⟩ := step_ok hi hok
  have hw' : w' = { w with pool := r.pool, held := w.held ++ r.got, next := w.next + r.made } := by
    have : step w (.acquire n aon oracle garbage) = some { w with pool := r.pool, held := w.held ++ r.got, next := w.next + r.made } := by
      simp only [step, e1]; rfl
    rw [e] at this; exact Option.some.inj this
  subst hw'
  have hn := hi'.nodup
  simp only [List.nodup_append] at hn
  refine ⟨_, r.got, e, rfl, rfl, e2.bound, hn.1.2.1.2.1, ?_, e3, ?_⟩
  · intro t ht
    refine ⟨fun hh => hn.1.2.1.2.2 t hh t ht rfl, fun hh => ?_, ?_⟩
    · exact hn.2.2 t (by simp [ht]) t hh rfl
    · exact hi'.fresh t (by simp [ht])
  · intro hall
    have := e4 hall
    rw [hi.acquired] at this
    exact this.2

/-- **C22.** Releasing puts exactly the released threads back into the pool, and
cleaning up tells exactly the idle threads to quit — never one that is held. -/
theorem C22_release_cleanup_partial {w : World} (h : Reach w) :
    (∀ ts, Op.Ok w (.release ts) → ∃ w', step w (.release ts) = some w' ∧
      w'.pool.idle.Perm (w.pool.idle ++ ts) ∧ (w'.held ++ ts).Perm w.held ∧ w'.quit = w.quit) ∧
    (∃ w', step w .cleanup = some w' ∧ w'.pool.idle = [] ∧ w'.held = w.held ∧
      w'.quit = w.quit ++ w.pool.idle) := by
  have hi := h.inv
  constructor
  · intro ts hop
    obtain ⟨⟨hne, hnd, hsub⟩, _⟩ := hop
    have hheld : w.held.Nodup := by
      have := hi.nodup; simp only [List.nodup_append] at this; exact this.1.2.1
    have hperm := filter_perm hheld hnd hsub
    have hlen : (w.held.filter (fun t => !ts.contains t)).length + ts.length = w.held.length := by
      rw [← hperm.length_eq, List.length_append]
    obtain ⟨p', e1, e2, e3, e4, e5⟩ := release_spec hi.wf ts ts.length
      (List.length_pos_iff.2 hne) (Nat.le_refl _)
      (by have := hi.limit; have := hi.acquired; omega)
    rw [List.take_length] at e5
    exact ⟨{ w with pool := p', held := w.held.filter (fun t => !ts.contains t) },
      by simp only [step, e1]; rfl, e5, hperm, rfl⟩
  · by_cases hz : w.pool.pooled = 0
    · have hidle : w.pool.idle = [] := by
        have := hi.wf.count; rw [hz] at this; exact List.length_eq_zero_iff.1 this.symm
      exact ⟨{ w with quit := w.quit ++ [] }, by simp [step, cleanup, hz], hidle, rfl, by rw [hidle]⟩
    · refine ⟨⟨⟨(w.pool.slots.map Option.isSome).map (fun _ => false), w.pool.slots.map (fun _ => none),
        w.pool.pooled - (w.pool.slots.filterMap id).length, w.pool.acquired⟩, w.held,
        w.quit ++ w.pool.slots.filterMap id, w.next⟩,
        by simp only [step, cleanup, if_neg hz, hi.wf.bits, cleanupScan_spec]; rfl, ?_, rfl, rfl⟩
      simp only [Pool.idle, List.filterMap_eq_nil_iff]; simp

/-- **C22, counterexample.** An all-or-nothing request on an empty pool whose first
thread cannot be created stores whatever the caller's array happened to contain
(here the number 99) into the pool and marks the slot as pooled; a later request
takes that "thread" — one that was never created — and hands it out. -/
theorem C22_all_or_nothing_hands_out_garbage :
    ∃ w1 w2, step ⟨Pool.empty, [], [], 0⟩ (.acquire 2 true [] [99]) = some w1 ∧
      step w1 (.acquire 2 false [true] []) = some w2 ∧ w2.held = [0, 99] ∧ w2.next = 1 := by
  refine ⟨_, _, rfl, rfl, rfl, rfl⟩

/-- Undefined behaviour if the caller's array is empty. -/
example : step ⟨Pool.empty, [], [], 0⟩ (.acquire 2 true [] []) = none := rfl

/-- Non-vacuity: a history with creation, release, reuse and cleanup. -/
example : ∃ w, Reach w ∧ w.held = [3, 0, 1] ∧ w.quit = [2] ∧ w.next = 4 := by
  have h0 := Reach.init
  have h1 : Reach ⟨_, [0, 1, 2], [], 3⟩ := Reach.step (op := .acquire 3 false [true, true, true] [])
    h0 ⟨trivial, by simp [FirstCreationFails]⟩ rfl
  have h2 : Reach ⟨_, [], [], 3⟩ := Reach.step (op := .release [0, 1, 2])
    h1 ⟨by refine ⟨by simp, by decide, by decide⟩, trivial⟩ rfl
  have h3 : Reach ⟨_, [0, 1], [], 3⟩ := Reach.step (op := .acquire 2 true [] [])
    h2 ⟨trivial, fun h => absurd h.2.1 (by decide)⟩ rfl
  have h4 : Reach ⟨_, [0, 1], [2], 3⟩ := Reach.step (op := .cleanup) h3 ⟨trivial, trivial⟩ rfl
  have h5 : Reach ⟨_, [], [2], 3⟩ := Reach.step (op := .release [0, 1])
    h4 ⟨by refine ⟨by simp, by decide, by decide⟩, trivial⟩ rfl
  have h6 : Reach ⟨_, [3, 0, 1], [2], 4⟩ := Reach.step (op := .acquire 3 true [true] [])
    h5 ⟨trivial, fun h => absurd rfl h.2.2.2⟩ rfl
  exact ⟨_, h6, rfl, rfl, rfl⟩

end Blend2D.ThreadPool
