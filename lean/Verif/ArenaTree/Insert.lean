import Verif.ArenaTree.Ctx

/-!
# Insertion

The loop of `insert` keeps three kinds of states apart, according to which of the pointer variables are still correct.
-/

namespace Blend2D.ArenaTree

/-- A black node with black children: nothing happens at it. -/
def Calm : Tree → Prop
  | .nil => False
  | .node l c _ r => c = false ∧ l.isRed = false ∧ r.isRed = false

/-- The pointer to the parent as the code has it: null below the false root. -/
def ptr (f : Frame) : Option Nat := if f.k = 0 then none else some f.k

/-- The states of the loop, with the number of steps they need. -/
inductive Mode (k : Nat) (v : Vars) : Nat → List Frame → Tree → Prop where
  | calm {f f1 fs q} : v.p = ptr f → v.dir = f.dir → Calm q → Mode k v (2 * q.size + 1) (f :: f1 :: fs) q
  | normal {f fs q} : v.p = ptr f → (fs ≠ [] → v.dir = f.dir) → (∀ f1 r, fs = f1 :: r → v.g = ptr f1) →
      (fs = [] → q.isRed = false ∧ q ≠ .nil ∧ v.t = 0 ∧ v.g = none) →
      (∀ f1, fs = [f1] → v.t = 0) → (q.isRed = true → f.sib.isRed = false) →
      (f.red = true → ∃ f1 f2 r, fs = f1 :: f2 :: r ∧ v.t = f2.k ∧ v.last = f1.dir ∧ f1.sib.isRed = false) →
      Mode k v (2 * q.size + 1) (f :: fs) q
  | step {f f1 fs l x r} : v.p = ptr f → v.dir = f.dir → f.red = false → Calm (if x < k then r else l) →
      Mode k v (2 * (if x < k then r else l).size + 2) (f :: f1 :: fs) (.node l true x r)

/-- The keys of a state are those of the list `L`, and the key `k` belongs at the focus. -/
structure Good (k : Nat) (L : List Nat) (fs : List Frame) (q : Tree) : Prop where
  head : HeadLast fs
  keys : lo fs ++ inorder q ++ hi fs = L
  below : ∀ x ∈ lo fs, x < k
  above : ∀ x ∈ hi fs, k < x

theorem ptr_ne {f g : Frame} {fs} (h : HeadLast (f :: g :: fs)) : ptr f = some f.k := by
  unfold ptr; rw [if_neg (headLast_cons.1 h).1]

theorem HeadLast.tail {f g : Frame} {fs} (h : HeadLast (f :: g :: fs)) : HeadLast (g :: fs) := (headLast_cons.1 h).2

theorem Good.descend {k L fs l c x r} (hL : L.Pairwise (· < ·)) (hk : k ∉ L) (h0 : x ≠ 0)
    (g : Good k L fs (.node l c x r)) :
    Good k L (⟨decide (x < k), c, x, if decide (x < k) then l else r⟩ :: fs) (if decide (x < k) then r else l) := by
  have hx : x ∈ L := by rw [← g.keys]; simp [inorder]
  have hne : x ≠ k := fun e => hk (e ▸ hx)
  have hs : (inorder (.node l c x r)).Pairwise (· < ·) := by
    have := hL
    rw [← g.keys, List.pairwise_append, List.pairwise_append] at this
    exact this.1.2.1
  unfold inorder at hs
  rw [List.pairwise_append, List.pairwise_cons] at hs
  obtain ⟨s1, ⟨s2, s3⟩, s4⟩ := hs
  have hh : ∀ (d : Bool) (t : Tree), HeadLast (⟨d, c, x, t⟩ :: fs) := by
    intro d t
    match fs, g.head with
    | f :: fs, h => exact headLast_cons.2 ⟨h0, h⟩
  by_cases e : x < k
  · refine ⟨hh _ _, ?_, ?_, ?_⟩
    · rw [← g.keys]; simp [lo, hi, e, inorder]
    · simp only [lo, e, decide_true, if_true, List.mem_append, List.mem_singleton]
      rintro y ((hy | hy) | hy)
      · exact g.below y hy
      · have := s4 y hy x (by simp); omega
      · omega
    · simpa [hi, e] using g.above
  · refine ⟨hh _ _, ?_, ?_, ?_⟩
    · rw [← g.keys]; simp [lo, hi, e, inorder]
    · simpa [lo, e] using g.below
    · have e' : decide (x < k) = false := by simp [e]
      simp only [hi, e', Bool.false_eq_true, if_false, List.mem_append, List.mem_cons]
      rintro y ((hy | hy) | hy)
      · omega
      · have := s2 y hy; omega
      · exact g.above y hy

theorem rb_descend {fs l c x r n} (hf : HeadLast fs) (hc : RBCtx fs c n) (hb : RB (.node l c x r) n) (d : Bool) :
    ∃ m, RBCtx (⟨d, c, x, if d then l else r⟩ :: fs) (if d then r else l).isRed m ∧ RB (if d then r else l) m := by
  match fs, hf with
  | f :: fs, hf =>
    obtain ⟨⟨h1, h2, h3⟩, h4⟩ := hb
    cases c with
    | true =>
      have h4 : BlackHeight l n ∧ BlackHeight r n := by simpa [BlackHeight] using h4
      obtain ⟨a, b⟩ := h1 rfl
      refine ⟨n, rbctx_cons.2 ?_, ?_⟩ <;> cases d <;> simp_all [RB]
    | false =>
      have h4 : ∃ m, n = m + 1 ∧ BlackHeight l m ∧ BlackHeight r m := by simpa [BlackHeight] using h4
      obtain ⟨m, rfl, ha, hb⟩ := h4
      refine ⟨m, rbctx_cons.2 ?_, ?_⟩ <;> cases d <;> simp_all [RB]

/-- The result of the loop. -/
def Done (k : Nat) (L : List Nat) (t : Tree) : Prop :=
  inorder t = L.filter (· < k) ++ k :: L.filter (k < ·) ∧ ∃ u m c, t = .node .nil c 0 u ∧ RB u m

/-- A position with the new node in it. -/
theorem done_of {k : Nat} {L fs fs' n q} (g : Good k L fs .nil) (hh : HeadLast fs') (hc : RBCtx fs' q.isRed n)
    (hb : RB q n) (he : lo fs' ++ inorder q ++ hi fs' = lo fs ++ k :: hi fs) : Done k L (plug fs' q) := by
  refine ⟨?_, ?_⟩
  · rw [inorder_plug, he, ← g.keys]
    have h1 : (lo fs).filter (· < k) = lo fs := List.filter_eq_self.2 (fun x hx => by simpa using g.below x hx)
    have h2 : (hi fs).filter (· < k) = [] :=
      List.filter_eq_nil_iff.2 (fun x hx => by have := g.above x hx; simp; omega)
    have h3 : (lo fs).filter (k < ·) = [] :=
      List.filter_eq_nil_iff.2 (fun x hx => by have := g.below x hx; simp; omega)
    have h4 : (hi fs).filter (k < ·) = hi fs := List.filter_eq_self.2 (fun x hx => by simpa using g.above x hx)
    simp [inorder, List.filter_append, h1, h2, h3, h4]
  · obtain ⟨u, m, c, e, hu⟩ := plug_root hh hc hb
    exact ⟨u, m, c, e, hu⟩

/-! The rotations. -/

/-- The former grandparent after a rotation away from the side `d`: its children are `a` (inner) and `b` (outer). -/
def side (d : Bool) (c : Bool) (k : Nat) (inner outer : Tree) : Tree :=
  if d then .node outer c k inner else .node inner c k outer

theorem fix_single {v : Vars} {fp fg ft : Frame} {rest q} (hp : v.p = some fp.k) (hg : v.g = some fg.k)
    (ht : v.t = ft.k) (hl : v.last = fg.dir) (hr : fp.red = true) (hq : q.isRed = true) (hd : fp.dir = fg.dir) :
    insertFix v (fp :: fg :: ft :: rest) q =
      some (⟨fg.dir, false, fp.k, side fg.dir true fg.k fp.sib fg.sib⟩ :: ft :: rest, q) := by
  obtain ⟨d, c, x, s⟩ := fp
  obtain ⟨d', c', x', s'⟩ := fg
  subst hd
  subst hr
  dsimp only at hl hp hg
  simp only [insertFix, redAt, hp, hq, hg, ht, hl]
  cases d <;> cases q <;>
    simp_all [Frame.fill, singleRotate, Tree.child, Tree.setChild, Tree.paint, down, Tree.key?, side, Tree.isRed]

theorem fix_double {v : Vars} {fp fg ft : Frame} {rest l c x r} (hp : v.p = some fp.k) (hg : v.g = some fg.k)
    (ht : v.t = ft.k) (hl : v.last = fg.dir) (hr : fp.red = true) (hc : c = true) (hd : fp.dir ≠ fg.dir) :
    insertFix v (fp :: fg :: ft :: rest) (.node l c x r) =
      some (ft :: rest,
        if fg.dir then .node (.node fg.sib true fg.k l) false x (.node r true fp.k fp.sib)
        else .node (.node fp.sib true fp.k l) false x (.node r true fg.k fg.sib)) := by
  obtain ⟨d, c', x', s⟩ := fp
  obtain ⟨d', c'', x'', s'⟩ := fg
  subst hr hc
  dsimp only at hl hp hg hd
  simp only [insertFix, redAt, hp, hg, ht, hl, Tree.isRed]
  cases d <;> cases d' <;>
    simp_all [Frame.fill, singleRotate, doubleRotate, Tree.child, Tree.setChild, Tree.paint, Tree.key?]

theorem fix_none {v : Vars} {f fs q} (hf : HeadLast (f :: fs)) (hp : v.p = ptr f) (h : q.isRed = false ∨ f.red = false) :
    insertFix v (f :: fs) q = some (f :: fs, q) := by
  have hr : ∃ b, redAt v.p (f :: fs) = some b ∧ (b = false ∨ b = f.red) := by
    match fs, hf with
    | [], hf =>
      have h0 : f.k = 0 := hf.1
      refine ⟨false, ?_, Or.inl rfl⟩
      simp [redAt, hp, ptr, h0]
    | g :: fs, hf =>
      refine ⟨f.red, ?_, Or.inr rfl⟩
      rw [hp, ptr_ne hf]; simp [redAt]
  obtain ⟨b, hb, hb'⟩ := hr
  have : (q.isRed && b) = false := by
    rcases h with h | h
    · simp [h]
    · rcases hb' with e | e
      · simp [e]
      · simp [e, h]
  simp only [insertFix, hb, Option.bind_eq_bind, Option.bind_some, this, Bool.false_eq_true, if_false]

/-- The next round of the loop after a step down. -/
theorem loop_next {k fuel v v' fs q fs' l c x r} (hf : insertFlip k v fs q = some (q', false))
    (hx : insertFix v fs q' = some (fs', .node l c x r))
    (hv : v' = ⟨v.p, some x, v.g.getD v.t, decide (x < k), v.dir⟩) :
    insertLoop k (fuel + 1) v fs q =
      insertLoop k fuel v' (⟨decide (x < k), c, x, if decide (x < k) then l else r⟩ :: fs')
        (if decide (x < k) then r else l) := by
  subst hv
  simp [insertLoop, hf, hx, Tree.key?, down]

theorem loop_done {k fuel v fs q fs' q'} (hf : insertFlip k v fs q = some (q', true))
    (hx : insertFix v fs q' = some (fs', q'')) : insertLoop k (fuel + 1) v fs q = some (plug fs' q'') := by
  simp [insertLoop, hf, hx]

/-- Both children of `q` red: the colours after the flip. -/
theorem flip_red {k v fs l c x r} (hx : x ≠ k) (hl : l.isRed = true) (hr : r.isRed = true) :
    ∃ l' r', l.paint false = some l' ∧ r.paint false = some r' ∧
      insertFlip k v fs (.node l c x r) = some (.node l' true x r', false) := by
  cases l <;> cases r <;> simp_all [Tree.isRed, Tree.paint, insertFlip]

theorem flip_calm {k v fs l c x r} (hx : x ≠ k) (h : ¬ (l.isRed = true ∧ r.isRed = true)) :
    insertFlip k v fs (.node l c x r) = some (.node l c x r, false) := by
  have : (l.isRed && r.isRed) = false := by
    cases hl : l.isRed <;> cases hr : r.isRed <;> simp_all
  simp [insertFlip, this, hx]

/-- A red child which becomes black is calm, and its black height grows. -/
theorem paint_calm {l l' n} (h : l.isRed = true) (hp : l.paint false = some l') (hr : NoRedRed l)
    (hb : BlackHeight l n) : Calm l' ∧ NoRedRed l' ∧ BlackHeight l' (n + 1) ∧ inorder l' = inorder l ∧
      l'.size = l.size ∧ l'.isRed = false := by
  cases l with
  | nil => simp [Tree.isRed] at h
  | node a c x b =>
    simp only [Tree.isRed] at h
    subst h
    simp only [Tree.paint, Option.some.injEq] at hp
    subst hp
    obtain ⟨h1, h2, h3⟩ := hr
    obtain ⟨p1, p2⟩ := h1 rfl
    refine ⟨⟨rfl, p1, p2⟩, ⟨by simp, h2, h3⟩, ?_, rfl, rfl, rfl⟩
    have : BlackHeight a n ∧ BlackHeight b n := by simpa [BlackHeight] using hb
    simp [BlackHeight, this]

theorem mem_ne_zero {k : Nat} {L fs q x} (g : Good k L fs q) (hL : L.Pairwise (· < ·)) (hx : x ∈ inorder q) :
    x ≠ 0 := by
  have : ∀ fs, HeadLast fs → 0 ∈ lo fs := by
    intro fs
    induction fs with
    | nil => intro h; exact h.elim
    | cons f fs ih =>
      intro h
      match fs, h with
      | [], h => simp [lo, h.1, h.2.1]
      | f1 :: fs, h =>
        have := ih (headLast_cons.1 h).2
        unfold lo
        split <;> simp [this]
  have h0 := this fs g.head
  rw [← g.keys, List.append_assoc, List.pairwise_append] at hL
  have := hL.2.2 0 h0 x (by simp [hx])
  omega

end Blend2D.ArenaTree
