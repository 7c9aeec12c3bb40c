import Verif.ArenaTree.Remove

/-!
# The loop of the removal
-/

namespace Blend2D.ArenaTree

theorem HeadLast.lo_zero : ∀ {fs : List Frame}, HeadLast fs → ∃ t, lo fs = 0 :: t
  | [], h => h.elim
  | [f], ⟨h1, h2, h3⟩ => ⟨[], by simp [lo, h1, h2, h3, inorder]⟩
  | f :: g :: fs, h => by
    obtain ⟨t, ht⟩ := HeadLast.lo_zero (headLast_cons.1 h).2
    rw [lo, ht]
    cases f.dir
    · exact ⟨t, by simp⟩
    · exact ⟨t ++ inorder f.sib ++ [f.k], by simp⟩

theorem nonzero {fp : Frame} {fs : List Frame} {q : Tree} {L : List Nat} (hL : L.Pairwise (· < ·))
    (hh : HeadLast (fp :: fs)) (hk : lo (fp :: fs) ++ inorder q ++ hi (fp :: fs) = L) {y : Nat}
    (hy : y ∈ inorder q ∨ y ∈ inorder fp.sib) : y ≠ 0 := by
  have key : ∀ (t : List Nat), L = 0 :: t → y ∈ t → y ≠ 0 := by
    intro t e hm
    rw [e, List.pairwise_cons] at hL
    have := hL.1 y hm
    omega
  match fs, hh with
  | [], hh =>
    obtain ⟨t, ht⟩ := hh.lo_zero
    rw [ht] at hk
    obtain ⟨_, _, h3⟩ := hh
    rcases hy with hy | hy
    · exact key _ hk.symm (by simp [hy])
    · rw [h3] at hy; simp [inorder] at hy
  | g :: fs, hh =>
    obtain ⟨t, ht⟩ := hh.tail.lo_zero
    rw [lo, hi, ht] at hk
    cases hd : fp.dir <;> simp only [hd, if_true, Bool.false_eq_true, if_false] at hk
    · exact key (t ++ inorder q ++ (fp.k :: inorder fp.sib ++ hi (g :: fs))) (by simp [← hk]) (by rcases hy with hy | hy <;> simp [hy])
    · exact key (t ++ inorder fp.sib ++ [fp.k] ++ inorder q ++ hi (g :: fs)) (by simp [← hk]) (by rcases hy with hy | hy <;> simp [hy])

/-- Where the loop is: still searching, at the node to be removed, or below it at its predecessors. -/
inductive Track (k : Nat) (v : RVars) (fs : List Frame) (q : Tree) : Prop
  | search (c : Tree) (hf : v.f = none) (hc : q.child v.dir = some c) (hk : k ∈ inorder c)
  | found (hf : v.f = some k) (hq : q.key? = some k) (hd : v.dir = false) (hb : ∃ b ∈ fs, b.k = v.gf.getD 0)
  | below (hf : v.f = some k) (h : List Nat) (hh : hi fs = k :: h) (hd : v.dir = true) (hb : BelowCtx (v.gf.getD 0) k fs)

/-- The loop invariant of `remove` after the first round. -/
structure Inv (k : Nat) (L : List Nat) (v : RVars) (fs : List Frame) (q : Tree) : Prop where
  head : HeadLast fs
  parent : ∀ f r, fs = f :: r → v.p = some f.k
  rb : ∃ n, RBCtx fs q.isRed n ∧ RB q n
  ready : Ready fs q v.dir
  keys : lo fs ++ inorder q ++ hi fs = L
  track : Track k v fs q

/-- One round, after the step down. -/
theorem round_ok {k : Nat} {L : List Nat} (hL : L.Pairwise (· < ·)) {fp : Frame} {fs' : List Frame} {g p f gf : Option Nat}
    {l r : Tree} {c : Bool} {x n : Nat} {last : Bool}
    (hh : HeadLast (fp :: fs')) (hp : p = some fp.k) (hg : ∀ f t, fs' = f :: t → g = some f.k) (hg0 : fs' = [] → g = none)
    (hl : fp.dir = last) (hc : RBCtx (fp :: fs') c n) (hb : RB (.node l c x r) n)
    (hk : lo (fp :: fs') ++ inorder (.node l c x r) ++ hi (fp :: fs') = L)
    (hr : c = false → fp.red = true ∨ fs' = [] ∨ (fs'.length = 1 ∧ fp.sib.isRed = false))
    (ht : (f = none ∧ k ∈ inorder (.node l c x r)) ∨
      (f = some k ∧ (∃ h, hi (fp :: fs') = k :: h) ∧ BelowCtx (gf.getD 0) k (fp :: fs'))) :
    ∃ p' fs2 q2, pushRed g p last (decide (x < k)) (fp :: fs') (.node l c x r) = some (p', fs2, q2) ∧
      Inv k L ⟨g, p', if x == k then some x else f, if x == k then g else gf, decide (x < k)⟩ fs2 q2 ∧
      q2.child (decide (x < k)) = some (if decide (x < k) then r else l) := by
  obtain ⟨p', fs2, q2, h1, P⟩ := push_ok (g := g) (dir := decide (x < k)) hh hp hg hl hc hb
    (fun y _ hy => nonzero hL hh hk hy) hr
  refine ⟨p', fs2, q2, h1, ⟨P.head, P.parent, P.rb, P.ready, P.keys.trans hk, ?_⟩, by rw [P.next]; rfl⟩
  have hS : (lo (fp :: fs') ++ inorder (.node l c x r) ++ hi (fp :: fs')).Pairwise (· < ·) := by rw [hk]; exact hL
  rcases ht with ⟨hf, hm⟩ | ⟨hf, ⟨h, hhi⟩, hbel⟩
  · by_cases hx : x = k
    · subst hx
      refine Track.found (by simp) (by rw [P.key]; rfl) (by simp) (P.keeps.1 _ ?_)
      simp only [beq_self_eq_true, if_true]
      match fs', hg, hg0, hh with
      | [], _, hg0, hh => exact ⟨fp, by simp, by rw [hg0 rfl]; exact hh.1⟩
      | a :: b, hg, _, _ => exact ⟨a, by simp, by rw [hg a b rfl]; rfl⟩
    · have hx' : (x == k) = false := by simpa using hx
      refine Track.search (if decide (x < k) then r else l) (by simp [hx', hf]) (by dsimp only; rw [P.next]; rfl) ?_
      simp only [List.pairwise_append, inorder, List.pairwise_cons] at hS
      simp only [inorder, List.mem_append, List.mem_cons] at hm
      rcases hm with hm | hm | hm
      · have := hS.1.2.1.2.2 k hm x (by simp)
        have hn : ¬ x < k := by omega
        simpa [hn] using hm
      · exact absurd hm.symm hx
      · have := hS.1.2.1.2.1.1 k hm
        simpa [this] using hm
  · have hxk : x < k := by
      rw [hhi, List.pairwise_append] at hS
      exact hS.2.2 x (by simp [inorder]) k (by simp)
    have hx' : (x == k) = false := by simp; omega
    have hd : decide (x < k) = true := by simpa using hxk
    refine Track.below (by simp [hx', hf]) h ((P.side hd).trans hhi) (by simpa using hxk) ?_
    have := P.keeps.2 _ _ hbel
    simpa [hx'] using this

theorem loop_stop {k fuel v fs q} (h : Tree.child q v.dir = some .nil) :
    removeLoop k (fuel + 1) v fs q = some (v, fs, q) := by
  simp [removeLoop, h]

theorem loop_go {k fuel : Nat} {v : RVars} {fs : List Frame} {l : Tree} {c : Bool} {y : Nat} {r : Tree}
    {l' : Tree} {c' : Bool} {x : Nat} {r' : Tree}
    (h : (if v.dir then r else l) = .node l' c' x r') {p' fs2 q2}
    (hp : pushRed v.p (some y) v.dir (decide (x < k)) (⟨v.dir, c, y, if v.dir then l else r⟩ :: fs) (.node l' c' x r') =
      some (p', fs2, q2)) :
    removeLoop k (fuel + 1) v fs (.node l c y r) =
      removeLoop k fuel ⟨v.p, p', if x == k then some x else v.f, if x == k then v.p else v.gf, decide (x < k)⟩ fs2 q2 := by
  simp only [removeLoop, Tree.child, h, down, Option.bind_eq_bind, Option.bind_some, Tree.key?, hp]

theorem remove_loop_ok {k : Nat} {L : List Nat} (hL : L.Pairwise (· < ·)) :
    ∀ (fuel : Nat) (v : RVars) (fs : List Frame) (q c : Tree), Inv k L v fs q → q.child v.dir = some c → c.size < fuel →
      ∃ v' fs' q', removeLoop k fuel v fs q = some (v', fs', q') ∧ Inv k L v' fs' q' ∧ q'.child v'.dir = some .nil := by
  intro fuel
  induction fuel with
  | zero => intro v fs q c _ _ h; omega
  | succ fuel ih =>
    intro v fs q c I hc hf
    cases c with
    | nil => exact ⟨v, fs, q, loop_stop hc, I, hc⟩
    | node l' c' x r' =>
      cases q with
      | nil => simp [Tree.child] at hc
      | node l b y r =>
        have hch : (if v.dir then r else l) = .node l' c' x r' := by simpa [Tree.child] using hc
        obtain ⟨n, hcx, hrb⟩ := I.rb
        have hy : y ≠ 0 := by
          match fs, I.head, I.keys with
          | f :: fs, hh, hk => exact nonzero hL hh hk (Or.inl (by simp [inorder]))
        obtain ⟨n', c1, c2⟩ := rb_descend I.head hcx hrb v.dir
        rw [hch] at c1 c2
        have hhd : HeadLast (⟨v.dir, b, y, if v.dir then l else r⟩ :: fs) := by
          match fs, I.head with
          | f :: fs, hh => exact headLast_cons.2 ⟨hy, hh⟩
        have s0 : lo (⟨v.dir, b, y, if v.dir then l else r⟩ :: fs) ++ inorder (.node l' c' x r') ++
            hi (⟨v.dir, b, y, if v.dir then l else r⟩ :: fs) = L := by
          rw [← I.keys, lo, hi]
          cases hd : v.dir <;> simp only [hd, if_true, Bool.false_eq_true, if_false] at hch ⊢ <;> rw [← hch] <;>
            simp [inorder]
        have s1 : c' = false → b = true ∨ fs = [] ∨ (fs.length = 1 ∧ (if v.dir then l else r).isRed = false) := by
          intro hcf
          rcases I.ready with h | ⟨c0, h, h'⟩ | ⟨h1, o, h2, h3⟩
          · exact Or.inl h
          · rw [hc] at h; cases h; rw [hcf] at h'; simp [Tree.isRed] at h'
          · refine Or.inr (Or.inr ⟨h1, ?_⟩)
            simp only [Tree.child, Option.some.injEq] at h2
            cases hd : v.dir <;> simp_all
        have s2 : (v.f = none ∧ k ∈ inorder (.node l' c' x r')) ∨
            (v.f = some k ∧ (∃ h, hi (⟨v.dir, b, y, if v.dir then l else r⟩ :: fs) = k :: h) ∧
              BelowCtx (v.gf.getD 0) k (⟨v.dir, b, y, if v.dir then l else r⟩ :: fs)) := by
          cases I.track with
          | search c0 hf hc0 hk => rw [hc] at hc0; cases hc0; exact Or.inl ⟨hf, hk⟩
          | found hf hq hd hb =>
            simp only [Tree.key?, Option.some.injEq] at hq
            subst hq
            exact Or.inr ⟨hf, ⟨inorder r ++ hi fs, by simp [hi, hd]⟩, Or.inl ⟨rfl, hb⟩⟩
          | below hf h hh hd hb =>
            exact Or.inr ⟨hf, ⟨h, by simp [hi, hd, hh]⟩, Or.inr hb⟩
        obtain ⟨p', fs2, q2, e1, e2, e3⟩ := round_ok (k := k) hL (g := v.p) (p := some y) (f := v.f) (gf := v.gf)
          (fs' := fs) (l := l') (c := c') (x := x) (r := r') (last := v.dir) hhd rfl I.parent
          (by intro e; have := I.head; rw [e] at this; exact this.elim) rfl c1 c2 s0 s1 s2
        rw [loop_go hch e1]
        refine ih _ _ _ _ e2 e3 ?_
        simp only [Tree.size] at hf
        split <;> omega

end Blend2D.ArenaTree
