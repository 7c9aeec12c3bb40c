import Verif.ArenaTree.RemoveLoop

/-!
# The end of the removal: the last node is taken out and takes the place of the removed node
-/

namespace Blend2D.ArenaTree

/-- The tree with the node `f` exchanged for the node `x`. -/
def rename (f x : Nat) : Tree → Tree
  | .nil => .nil
  | .node l c k r => .node (rename f x l) c (if k = f then x else k) (rename f x r)

theorem inorder_rename (f x : Nat) : ∀ t, inorder (rename f x t) = (inorder t).map (fun k => if k = f then x else k)
  | .nil => rfl
  | .node l c k r => by simp [rename, inorder, inorder_rename f x l, inorder_rename f x r]

theorem isRed_rename (f x : Nat) (t) : (rename f x t).isRed = t.isRed := by cases t <;> rfl

theorem rename_id {f x : Nat} : ∀ {t}, f ∉ inorder t → rename f x t = t
  | .nil, _ => rfl
  | .node l c k r, h => by
    simp only [inorder, List.mem_append, List.mem_cons, not_or] at h
    simp [rename, rename_id h.1, rename_id h.2.2, Ne.symm h.2.1]

theorem noRedRed_rename (f x : Nat) : ∀ {t}, NoRedRed t → NoRedRed (rename f x t)
  | .nil, _ => trivial
  | .node l c k r, ⟨h1, h2, h3⟩ => ⟨by simpa [isRed_rename] using h1, noRedRed_rename f x h2, noRedRed_rename f x h3⟩

theorem blackHeight_rename (f x : Nat) : ∀ {t n}, BlackHeight t n → BlackHeight (rename f x t) n
  | .nil, _, h => h
  | .node l true k r, n, h => by
    have h : BlackHeight l n ∧ BlackHeight r n := by simpa [BlackHeight] using h
    simpa [rename, BlackHeight] using ⟨blackHeight_rename f x h.1, blackHeight_rename f x h.2⟩
  | .node l false k r, n, h => by
    have h : ∃ m, n = m + 1 ∧ BlackHeight l m ∧ BlackHeight r m := by simpa [BlackHeight] using h
    obtain ⟨m, e, h1, h2⟩ := h
    simpa [rename, BlackHeight] using ⟨m, e, blackHeight_rename f x h1, blackHeight_rename f x h2⟩

theorem sorted_node {l c k r} (h : Sorted (.node l c k r)) :
    Sorted l ∧ Sorted r ∧ (∀ y ∈ inorder l, y < k) ∧ ∀ y ∈ inorder r, k < y := by
  unfold Sorted inorder at h
  rw [List.pairwise_append, List.pairwise_cons] at h
  exact ⟨h.1, h.2.1.2, fun y hy => h.2.2 y hy k (by simp), h.2.1.1⟩

theorem walk_ok {f x : Nat} : ∀ {t : Tree}, Sorted t → f ∈ inorder t → t.key? ≠ some f → walk f x t = some (rename f x t)
  | .nil, _, h, _ => by simp [inorder] at h
  | .node l c n r, hs, hm, hk => by
    obtain ⟨sl, sr, hl, hr⟩ := sorted_node hs
    have hn : n ≠ f := by simpa [Tree.key?] using hk
    simp only [inorder, List.mem_append, List.mem_cons] at hm
    rw [rename, if_neg hn]
    by_cases hlt : n < f
    · have hml : f ∉ inorder l := fun h => by have := hl f h; omega
      have hmr : f ∈ inorder r := by
        rcases hm with h | h | h
        · exact absurd h hml
        · omega
        · exact h
      rw [rename_id hml]
      cases r with
      | nil => simp [inorder] at hmr
      | node rl rc rk rr =>
        obtain ⟨srl, srr, hrl, hrr⟩ := sorted_node sr
        by_cases e : rk = f
        · subst e
          have h1 : rk ∉ inorder rl := fun h => by have := hrl rk h; omega
          have h2 : rk ∉ inorder rr := fun h => by have := hrr rk h; omega
          simp [walk, hlt, rename, rename_id h1, rename_id h2]
        · have ih := walk_ok (f := f) (x := x) sr hmr (by simpa [Tree.key?] using e)
          rw [walk.eq_def]
          simp only [hlt, if_true, e, if_false, ih, Option.map_some]
    · have hmr : f ∉ inorder r := fun h => by have := hr f h; omega
      have hml : f ∈ inorder l := by
        rcases hm with h | h | h
        · exact h
        · omega
        · exact absurd h hmr
      rw [rename_id hmr]
      cases l with
      | nil => simp [inorder] at hml
      | node rl rc rk rr =>
        obtain ⟨srl, srr, hrl, hrr⟩ := sorted_node sl
        by_cases e : rk = f
        · subst e
          have h1 : rk ∉ inorder rl := fun h => by have := hrl rk h; omega
          have h2 : rk ∉ inorder rr := fun h => by have := hrr rk h; omega
          simp [walk, hlt, rename, rename_id h1, rename_id h2]
        · have ih := walk_ok (f := f) (x := x) sl hml (by simpa [Tree.key?] using e)
          rw [walk.eq_def]
          simp only [hlt, e, if_false, ih, Option.map_some]

theorem atNode_none {n : Nat} {fn} : ∀ {t : Tree}, n ∉ inorder t → atNode n fn t = none
  | .nil, _ => rfl
  | .node l c k r, h => by
    simp only [inorder, List.mem_append, List.mem_cons, not_or] at h
    simp [atNode, Ne.symm h.2.1, atNode_none h.1, atNode_none h.2.2]

/-- The node `f` is in the tree, strictly below the node `n`. -/
def Below (n f : Nat) : Tree → Prop
  | .nil => False
  | .node l _ k r => (k = n ∧ (f ∈ inorder l ∨ f ∈ inorder r)) ∨ Below n f l ∨ Below n f r

theorem Below.mem {n f} : ∀ {t}, Below n f t → n ∈ inorder t ∧ f ∈ inorder t
  | .node l c k r, h => by
    simp only [inorder, List.mem_append, List.mem_cons]
    rcases h with ⟨e, h⟩ | h | h
    · subst e; exact ⟨Or.inr (Or.inl rfl), h.elim Or.inl (fun h => Or.inr (Or.inr h))⟩
    · exact ⟨Or.inl h.mem.1, Or.inl h.mem.2⟩
    · exact ⟨Or.inr (Or.inr h.mem.1), Or.inr (Or.inr h.mem.2)⟩

theorem atNode_ok {n f x : Nat} : ∀ {t : Tree}, Sorted t → Below n f t → atNode n (walk f x) t = some (rename f x t)
  | .node l c k r, hs, hb => by
    obtain ⟨sl, sr, hl, hr⟩ := sorted_node hs
    unfold atNode
    by_cases e : k = n
    · subst e
      rw [if_pos rfl]
      have hm : f ∈ inorder l ∨ f ∈ inorder r := by
        rcases hb with h | h | h
        · exact h.2
        · have := hl k h.mem.1; omega
        · have := hr k h.mem.1; omega
      have hne : k ≠ f := by
        rintro rfl
        rcases hm with h | h
        · have := hl k h; omega
        · have := hr k h; omega
      refine walk_ok hs ?_ (by simpa [Tree.key?] using hne)
      simp only [inorder, List.mem_append, List.mem_cons]
      rcases hm with h | h
      · exact Or.inl h
      · exact Or.inr (Or.inr h)
    · rw [if_neg e]
      rcases hb with h | h | h
      · exact absurd h.1 e
      · rw [atNode_ok sl h]
        have h1 := hl f h.mem.2
        have h2 : f ∉ inorder r := fun hm => by have := hr f hm; omega
        simp only [rename, rename_id h2]
        rw [if_neg (by omega)]
      · have h1 : n ∉ inorder l := fun hm => by have := hl n hm; have := hr n h.mem.1; omega
        rw [atNode_none h1, atNode_ok sr h]
        have h3 := hr f h.mem.2
        have h2 : f ∉ inorder l := fun hm => by have := hl f hm; omega
        simp only [rename, rename_id h2, Option.map_some]
        rw [if_neg (by omega)]

theorem below_plug {n f} : ∀ (fs : List Frame) {t}, Below n f t → Below n f (plug fs t)
  | [], _, h => h
  | fr :: fs, t, h => by
    refine below_plug fs ?_
    unfold Frame.fill
    cases fr.dir
    · exact Or.inr (Or.inl h)
    · exact Or.inr (Or.inr h)

theorem mem_fill {f t} (fr : Frame) : f = fr.k ∨ f ∈ inorder t → f ∈ inorder (fr.fill t) := by
  unfold Frame.fill
  rintro (h | h) <;> cases fr.dir <;> simp [inorder, h]

theorem below_above {n f} : ∀ (fs : List Frame) {t}, f ∈ inorder t → (∃ b ∈ fs, b.k = n) → Below n f (plug fs t)
  | [], _, _, ⟨b, h, _⟩ => by simp at h
  | fr :: fs, t, hm, ⟨b, hb, e⟩ => by
    rcases List.mem_cons.1 hb with rfl | hb
    · refine below_plug fs ?_
      unfold Frame.fill
      cases b.dir
      · exact Or.inl ⟨e, Or.inl hm⟩
      · exact Or.inl ⟨e, Or.inr hm⟩
    · exact below_above fs (mem_fill fr (Or.inr hm)) ⟨b, hb, e⟩

theorem below_ctx {n f} : ∀ (fs : List Frame) {t}, BelowCtx n f fs → Below n f (plug fs t)
  | [], _, h => h.elim
  | fr :: fs, t, h => by
    rcases h with ⟨e, h⟩ | h
    · exact below_above fs (mem_fill fr (Or.inl e.symm)) h
    · exact below_ctx fs h

theorem black_zero {t : Tree} (h : BlackHeight t 0) (hb : t.isRed = false) : t = .nil := by
  cases t with
  | nil => rfl
  | node l c k r =>
    simp only [isRed_node] at hb
    subst hb
    simp [BlackHeight] at h

/-- At the end of the loop the focus has no children, and the tree stays balanced without it. -/
theorem last_leaf {fs q n dir} (hr : Ready fs q dir) (hc : RBCtx fs q.isRed n) (hb : RB q n) (hn : q.child dir = some .nil) :
    ∃ c x, q = .node .nil c x .nil ∧ RBCtx fs false 0 := by
  cases q with
  | nil => simp [Tree.child] at hn
  | node l c x r =>
    have hn' : (if dir then r else l) = .nil := by simpa [Tree.child] using hn
    have hboth : l.isRed = false ∧ r.isRed = false ∧ (c = true ∨ fs.length = 1) := by
      rcases hr with h | ⟨c0, h, h'⟩ | ⟨h1, o, h2, h3⟩
      · simp only [isRed_node] at h
        subst h
        have := hb.1.1 rfl
        exact ⟨this.1, this.2, Or.inl rfl⟩
      · rw [hn] at h; cases h; simp [Tree.isRed] at h'
      · simp only [Tree.child, Option.some.injEq] at h2
        cases dir
        · simp only [Bool.false_eq_true, if_false, Bool.not_false, if_true] at hn' h2
          subst hn'; subst h2; exact ⟨rfl, h3, Or.inr h1⟩
        · simp only [Bool.not_true, if_true, Bool.false_eq_true, if_false] at hn' h2
          subst hn'; subst h2; exact ⟨h3, rfl, Or.inr h1⟩
    obtain ⟨b1, b2, b3⟩ := hboth
    have hm : ∃ m, BlackHeight l m ∧ BlackHeight r m ∧ (c = true → n = m) := by
      cases c with
      | true => obtain ⟨a, b, _⟩ := rb_kids_red hb; exact ⟨n, a.2, b.2, fun _ => rfl⟩
      | false => obtain ⟨m, _, a, b⟩ := rb_kids_black hb; exact ⟨m, a.2, b.2, by simp⟩
    obtain ⟨m, m1, m2, m3⟩ := hm
    have hm0 : m = 0 := by
      cases dir
      · simp only [Bool.false_eq_true, if_false] at hn'; subst hn'; exact m1
      · simp only [if_true] at hn'; subst hn'; exact m2
    subst hm0
    refine ⟨c, x, by rw [black_zero m1 b1, black_zero m2 b2], ?_⟩
    rcases b3 with h | h
    · have := m3 h
      subst this
      exact hc.black
    · match fs, h with
      | [f], _ => trivial

theorem remove_ok {root : Tree} {k : Nat} (hs : Sorted root) (h0 : 0 ∉ inorder root) (hk : k ∈ inorder root)
    (hrb : RedBlack root) :
    ∃ t, remove root k = some t ∧ inorder t = (inorder root).erase k ∧ RedBlack t := by
  have hL : (0 :: inorder root).Pairwise (· < ·) := by
    rw [List.pairwise_cons]
    refine ⟨fun y hy => Nat.pos_of_ne_zero ?_, hs⟩
    rintro rfl; exact h0 hy
  cases root with
  | nil => simp [inorder] at hk
  | node l c x r =>
    obtain ⟨hblk, hnr, n, hbh⟩ := hrb
    -- the first round
    obtain ⟨p', fs2, q2, e1, e2, e3⟩ := round_ok (k := k) (L := 0 :: inorder (.node l c x r)) hL (fp := ⟨true, false, 0, .nil⟩)
      (fs' := []) (g := none) (p := some 0) (f := none) (gf := none) (l := l) (r := r) (c := c) (x := x) (n := n)
      (last := true) ⟨rfl, rfl, rfl⟩ rfl (by simp) (by simp) rfl trivial ⟨hnr, hbh⟩ (by simp [lo, hi, inorder])
      (by simp) (Or.inl ⟨rfl, hk⟩)
    have hgo := loop_go (k := k) (fuel := (Tree.node l c x r).size) (v := ⟨none, none, none, none, true⟩) (fs := [])
      (l := .nil) (c := false) (y := 0) (r := .node l c x r) (l' := l) (c' := c) (x := x) (r' := r) rfl e1
    obtain ⟨v', fs', q', f1, I, f3⟩ := remove_loop_ok hL (Tree.node l c x r).size _ _ _ _ e2 e3
      (by simp only [Tree.size]; split <;> omega)
    have hloop := hgo.trans f1
    clear hgo f1 e1 e2 e3
    obtain ⟨m, hcx, hq⟩ := I.rb
    obtain ⟨c', y, rfl, hctx⟩ := last_leaf I.ready hcx hq f3
    -- the tree without the last node
    obtain ⟨u, m', c2, hu, hru⟩ := plug_root (t := .nil) I.head hctx ⟨trivial, rfl⟩
    have hio : 0 :: inorder u = lo fs' ++ hi fs' := by
      have := inorder_plug fs' .nil
      rw [hu] at this
      simpa [inorder] using this
    have hkeys : lo fs' ++ y :: hi fs' = 0 :: inorder (.node l c x r) := by
      rw [← I.keys]; simp [inorder]
    obtain ⟨f0, r0, hfs⟩ : ∃ f r, fs' = f :: r := by
      match fs', I.head with
      | f :: r, _ => exact ⟨f, r, rfl⟩
    have hnd : ∀ {a b : List Nat} {z}, a ++ z :: b = 0 :: inorder (.node l c x r) → z ∉ a ∧ z ∉ b ∧
        (∀ w, z = w → 0 < w → a ++ b = 0 :: (inorder (.node l c x r)).erase w) := by
      intro a b z e
      rw [← e, List.pairwise_append, List.pairwise_cons] at hL
      have n1 : z ∉ a := fun h => by have := hL.2.2 z h z (by simp); omega
      have n2 : z ∉ b := fun h => by have := hL.2.1.1 z h; omega
      refine ⟨n1, n2, ?_⟩
      rintro w rfl hw
      have h3 := congrArg (List.erase · z) e
      rw [List.erase_append_right _ n1, List.erase_cons_head, List.erase_cons_tail (by simp; omega)] at h3
      exact h3
    have hkpos : 0 < k := Nat.pos_of_ne_zero (by rintro rfl; exact h0 hk)
    have hrem : remove (.node l c x r) k = (do
        let f ← v'.f
        let t ← (if f ≠ y then atNode (v'.gf.getD 0) (walk f y) (plug fs' .nil) else some (plug fs' .nil))
        rootOf t) := by
      unfold remove
      rw [hloop]
      simp only [Option.bind_eq_bind, Option.bind_some, Tree.key?, Tree.child, if_true, Bool.false_eq_true, if_false]
      cases v'.f with
      | none => rfl
      | some f =>
        have hp := I.parent f0 r0 hfs
        rw [hfs]
        simp only [Option.bind_some, hp, if_true]
    rw [hrem]
    cases I.track with
    | search cc hf hc hkc => rw [f3] at hc; cases hc; simp [inorder] at hkc
    | found hf hqk hd hb =>
      simp only [Tree.key?, Option.some.injEq] at hqk
      subst hqk
      obtain ⟨t, t1, t2, t3⟩ := rootOf_ok (c := c2) hru
      refine ⟨t, ?_, ?_, t3⟩
      · simp only [hf, Option.bind_eq_bind, Option.bind_some, ne_eq, not_true_eq_false, if_false, hu, t1]
      · have := (hnd hkeys).2.2 y rfl hkpos
        rw [← hio] at this
        rw [t2]; simpa using this
    | below hf h hh hd hb =>
      have hyk : y ≠ k := by
        intro e
        refine (hnd hkeys).2.1 ?_
        rw [hh, e]; simp
      have hsort : Sorted (plug fs' .nil) := by
        unfold Sorted
        rw [inorder_plug]
        have : (lo fs' ++ y :: hi fs').Pairwise (· < ·) := by rw [hkeys]; exact hL
        rw [List.pairwise_append, List.pairwise_cons] at this
        simp only [inorder, List.append_nil]
        rw [List.pairwise_append]
        exact ⟨this.1, this.2.1.2, fun a ha b hb => this.2.2 a ha b (by simp [hb])⟩
      have hat := atNode_ok (x := y) hsort (below_ctx fs' (t := .nil) hb)
      have hren : rename k y (.node .nil c2 0 u) = .node .nil c2 0 (rename k y u) := by
        simp only [rename]; rw [if_neg (by omega)]
      obtain ⟨t, t1, t2, t3⟩ := rootOf_ok (c := c2) (u := rename k y u) (m := m')
        ⟨noRedRed_rename _ _ hru.1, blackHeight_rename _ _ hru.2⟩
      refine ⟨t, ?_, ?_, t3⟩
      · simp only [hf, Option.bind_eq_bind, Option.bind_some, ne_eq, hyk.symm, not_false_eq_true, if_true, hat]
        rw [hu, hren]; exact t1
      · have hk2 : (lo fs' ++ [y]) ++ k :: h = 0 :: inorder (.node l c x r) := by rw [← hkeys, hh]; simp
        obtain ⟨n1, n2, n3⟩ := hnd hk2
        have e := n3 k rfl hkpos
        have hmap : ∀ a : List Nat, k ∉ a → a.map (fun z => if z = k then y else z) = a := by
          intro a ha
          conv_rhs => rw [← List.map_id a]
          refine List.map_congr_left fun z hz => ?_
          rw [if_neg (by rintro rfl; exact ha hz)]; rfl
        have h4 := congrArg (List.map (fun z => if z = k then y else z)) hio
        rw [hh] at h4
        simp only [List.map_cons, List.map_append, if_true] at h4
        rw [if_neg (by omega), ← inorder_rename, hmap _ (fun h => n1 (by simp [h])), hmap _ n2] at h4
        have h5 : 0 :: inorder (rename k y u) = 0 :: (inorder (.node l c x r)).erase k := by
          rw [h4, ← e]; simp
        rw [t2]
        exact (List.cons.inj h5).2

end Blend2D.ArenaTree
