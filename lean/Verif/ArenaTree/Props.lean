import Verif.ArenaTree.RemoveEnd

/-!
# C30: the arena tree is an ordered set and stays balanced
-/

namespace Blend2D.ArenaTree

/-- A tree which histories produce: ordered, without the key of the false root, and balanced. -/
def Fine (t : Tree) : Prop := Sorted t ∧ 0 ∉ inorder t ∧ RedBlack t

theorem insert_ok {t : Tree} {k : Nat} (h : Fine t) (h0 : 0 < k) (hk : k ∉ inorder t) :
    ∃ t', insert t k = some t' ∧ inorder t' = (inorder t).filter (· < k) ++ k :: (inorder t).filter (k < ·) ∧ RedBlack t' := by
  obtain ⟨hs, hz, hr⟩ := h
  cases t with
  | nil => exact ⟨_, rfl, rfl, rfl, by simp [NoRedRed, Tree.isRed], 1, by simp [BlackHeight]⟩
  | node l c x r =>
    have hL : (0 :: inorder (.node l c x r)).Pairwise (· < ·) := by
      rw [List.pairwise_cons]
      exact ⟨fun y hy => Nat.pos_of_ne_zero (by rintro rfl; exact hz hy), hs⟩
    obtain ⟨hb, hn, n, hh⟩ := hr
    obtain ⟨t', h1, h2, u, m, c', h3, h4⟩ := loop_ok (k := k) hL (by simp; exact ⟨by omega, by simpa using hk⟩)
      (2 * (Tree.node l c x r).size + 2) ⟨none, none, 0, false, false⟩ n (2 * (Tree.node l c x r).size + 1)
      [⟨true, false, 0, .nil⟩] (.node l c x r)
      ⟨⟨rfl, rfl, rfl⟩, by simp [lo, hi, inorder], by simp [lo, inorder, h0], by simp [hi]⟩ trivial ⟨hn, hh⟩
      (Mode.normal rfl (by simp) (by simp) (fun _ => ⟨hb, by simp, rfl, rfl⟩) (by simp) (fun _ => rfl) (by simp)) (by omega)
    obtain ⟨t2, e1, e2, e3⟩ := rootOf_ok (c := c') h4
    refine ⟨t2, ?_, ?_, e3⟩
    · simp only [insert, h1, Option.bind_eq_bind, Option.bind_some]
      rw [h3]; exact e1
    · rw [h3] at h2
      simp only [inorder, List.nil_append, List.filter_cons, h0, decide_true, if_true] at h2
      rw [e2]
      have : ¬ k < 0 := by omega
      simpa [inorder, this] using h2

theorem perm_filter {L : List Nat} (k : Nat) (hk : k ∉ L) : (L.filter (· < k) ++ k :: L.filter (k < ·)).Perm (k :: L) := by
  refine List.perm_middle.trans (List.Perm.cons _ ?_)
  have : L.filter (k < ·) = L.filter (fun y => !decide (y < k)) := by
    refine List.filter_congr fun y hy => ?_
    have : y ≠ k := by rintro rfl; exact hk hy
    simp only [← decide_not, decide_eq_decide]; omega
  rw [this]
  exact List.filter_append_perm _ _

theorem insert_fine {t t' : Tree} {k : Nat} (h : Fine t) (h0 : 0 < k) (hk : k ∉ inorder t)
    (hi : inorder t' = (inorder t).filter (· < k) ++ k :: (inorder t).filter (k < ·)) (hr : RedBlack t') : Fine t' := by
  refine ⟨?_, ?_, hr⟩
  · unfold Sorted
    rw [hi, List.pairwise_append, List.pairwise_cons]
    refine ⟨h.1.filter _, ⟨fun y hy => by simpa using (List.mem_filter.1 hy).2, h.1.filter _⟩, fun a ha b hb => ?_⟩
    have ha : a < k := by simpa using (List.mem_filter.1 ha).2
    rcases List.mem_cons.1 hb with rfl | hb
    · exact ha
    · have : k < b := by simpa using (List.mem_filter.1 hb).2
      omega
  · rw [hi]
    simp only [List.mem_append, List.mem_cons, List.mem_filter, not_or, not_and]
    exact ⟨fun h' => absurd h' h.2.1, by omega, fun h' => absurd h' h.2.1⟩

theorem run_ok : ∀ (os : List Op) (s s' : List Nat) (t : Tree), Fine t → (inorder t).Perm s → keysAfter os s = some s' →
    ∃ t', run os t = some t' ∧ Fine t' ∧ (inorder t').Perm s'
  | [], s, s', t, hf, hp, h => by
    simp only [keysAfter, Option.some.injEq] at h
    subst h
    exact ⟨t, rfl, hf, hp⟩
  | .insert k :: os, s, s', t, hf, hp, h => by
    simp only [keysAfter] at h
    by_cases hc : 0 < k ∧ k ∉ s
    · rw [if_pos hc] at h
      have hk : k ∉ inorder t := fun hm => hc.2 (hp.mem_iff.1 hm)
      obtain ⟨t1, h1, h2, h3⟩ := insert_ok hf hc.1 hk
      have hp1 : (inorder t1).Perm (k :: s) := by
        rw [h2]; exact (perm_filter k hk).trans (hp.cons k)
      obtain ⟨t', g1, g2, g3⟩ := run_ok os (k :: s) s' t1 (insert_fine hf hc.1 hk h2 h3) hp1 h
      exact ⟨t', by rw [run, h1]; exact g1, g2, g3⟩
    · rw [if_neg hc] at h; cases h
  | .remove k :: os, s, s', t, hf, hp, h => by
    simp only [keysAfter] at h
    by_cases hc : k ∈ s
    · rw [if_pos hc] at h
      obtain ⟨t1, h1, h2, h3⟩ := remove_ok hf.1 hf.2.1 (hp.mem_iff.2 hc) hf.2.2
      have hp1 : (inorder t1).Perm (s.erase k) := by rw [h2]; exact hp.erase k
      have hf1 : Fine t1 := by
        refine ⟨?_, ?_, h3⟩
        · unfold Sorted; rw [h2]; exact hf.1.sublist List.erase_sublist
        · rw [h2]; exact fun h => hf.2.1 (List.mem_of_mem_erase h)
      obtain ⟨t', g1, g2, g3⟩ := run_ok os (s.erase k) s' t1 hf1 hp1 h
      exact ⟨t', by rw [run, h1]; exact g1, g2, g3⟩
    · rw [if_neg hc] at h; cases h

theorem fine_nil : Fine .nil := ⟨List.Pairwise.nil, by simp [inorder], rfl, trivial, 0, rfl⟩

/-- After every history of insertions of new nodes and removals of present nodes the code has not touched a null or stale
pointer, and the tree holds exactly the nodes inserted and not removed, once each and in order. -/
theorem C30_ordered_set (os : List Op) (s : List Nat) (h : keysAfter os [] = some s) :
    ∃ t, run os .nil = some t ∧ (inorder t).Perm s ∧ (inorder t).Pairwise (· < ·) := by
  obtain ⟨t, h1, h2, h3⟩ := run_ok os [] s .nil fine_nil (by simp [inorder]) h
  exact ⟨t, h1, h3, h2.1⟩

/-- After every history the tree is a red-black tree: no red node has a red child, every path to a null link meets the same
number of black nodes, and the root is black. -/
theorem C30_red_black (os : List Op) (s : List Nat) (h : keysAfter os [] = some s) (t : Tree) (ht : run os .nil = some t) :
    RedBlack t := by
  obtain ⟨t', h1, h2, _⟩ := run_ok os [] s .nil fine_nil (by simp [inorder]) h
  rw [h1] at ht; cases ht; exact h2.2.2

/-- After every history the longest path has at most `2 log₂ (n + 1)` nodes, `n` being the number of nodes in the tree. -/
theorem C30_height (os : List Op) (s : List Nat) (h : keysAfter os [] = some s) (t : Tree) (ht : run os .nil = some t) :
    height t ≤ 2 * Nat.log 2 (s.length + 1) := by
  obtain ⟨t', h1, h2, h3⟩ := run_ok os [] s .nil fine_nil (by simp [inorder]) h
  rw [h1] at ht; cases ht
  rw [← h3.length_eq, length_inorder]
  exact redBlack_height h2.2.2

/-- After every history `get` finds a node exactly when it is in the set. -/
theorem C30_get (os : List Op) (s : List Nat) (h : keysAfter os [] = some s) (t : Tree) (ht : run os .nil = some t) (k : Nat) :
    get t k = if k ∈ s then some k else none := by
  obtain ⟨t', h1, h2, h3⟩ := run_ok os [] s .nil fine_nil (by simp [inorder]) h
  rw [h1] at ht; cases ht
  rw [get_spec t k h2.1]
  simp only [h3.mem_iff]

/-- A history with rotations of every kind satisfies the hypotheses. -/
example : keysAfter [.insert 5, .insert 2, .insert 8, .insert 1, .insert 4, .insert 3, .insert 7, .insert 6, .insert 9,
      .remove 5, .remove 1, .insert 10, .remove 8] [] = some [10, 9, 6, 7, 3, 4, 2] ∧
    (run [.insert 5, .insert 2, .insert 8, .insert 1, .insert 4, .insert 3, .insert 7, .insert 6, .insert 9,
      .remove 5, .remove 1, .insert 10, .remove 8] .nil).map (fun t => (inorder t, height t)) =
      some ([2, 3, 4, 6, 7, 9, 10], 4) := by decide +kernel

end Blend2D.ArenaTree
