import Verif.List2.Model
import Mathlib.Data.List.Basic
import Mathlib.Data.List.Nodup

/-!
# The intrusive list behaves like a list (C34)
-/

namespace Blend2D.List2

/-! ## Specification: an ordinary list of nodes -/

/-- A list (its nodes in order) and the nodes that may still have links although they are in no
list (a list that was `reset` does not visit its nodes). -/
structure Spec where
  items : List Nat
  stale : List Nat
deriving DecidableEq, Repr

/-- The list with `n` inserted after `ref`. -/
def insAfter (ref n : Nat) : List Nat → List Nat
  | [] => []
  | a :: l => if a = ref then a :: n :: l else a :: insAfter ref n l

/-- The list with `n` inserted before `ref`. -/
def insBefore (ref n : Nat) : List Nat → List Nat
  | [] => []
  | a :: l => if a = ref then n :: a :: l else a :: insBefore ref n l

/-- What every operation does to the list, and the node it returns. -/
def Spec.step (x : Spec) : Op → Spec × Option Nat
  | .construct n => (⟨x.items, x.stale.filter (· ≠ n)⟩, none)
  | .reset => (⟨[], x.items ++ x.stale⟩, none)
  | .resetTo n => (⟨[n], x.items ++ x.stale⟩, none)
  | .append n => (⟨x.items ++ [n], x.stale⟩, none)
  | .prepend n => (⟨n :: x.items, x.stale⟩, none)
  | .insertAfter ref n => (⟨insAfter ref n x.items, x.stale⟩, none)
  | .insertBefore ref n => (⟨insBefore ref n x.items, x.stale⟩, none)
  | .unlink n => (⟨x.items.erase n, x.stale⟩, some n)
  | .popFirst => (⟨x.items.tail, x.stale⟩, x.items.head?)
  | .pop => (⟨x.items.dropLast, x.stale⟩, x.items.getLast?)

/-- What callers may do: a node is in the list at most once, nodes with stale links are
constructed again before they are appended or prepended, only existing nodes
are used as a reference or unlinked, and nothing is taken from an empty list. -/
def Spec.Legal (x : Spec) : Op → Prop
  | .construct n => n ∉ x.items
  | .reset => True
  | .resetTo _ => True
  | .append n => n ∉ x.items ∧ n ∉ x.stale
  | .prepend n => n ∉ x.items ∧ n ∉ x.stale
  | .insertAfter ref n => ref ∈ x.items ∧ n ∉ x.items
  | .insertBefore ref n => ref ∈ x.items ∧ n ∉ x.items
  | .unlink n => n ∈ x.items
  | .popFirst => x.items ≠ []
  | .pop => x.items ≠ []

/-- A history of legal operations on the specification. -/
inductive History : List Op → Spec → Prop
  | nil : History [] ⟨[], []⟩
  | snoc {ops : List Op} {x : Spec} (op : Op) : History ops x → x.Legal op → History (ops ++ [op]) (x.step op).1

/-! ## Representation -/

/-- The links represent the list. -/
structure Rep (s : St) (xs : List Nat) : Prop where
  nodup : xs.Nodup
  first : s.nodes false = xs.head?
  last : s.nodes true = xs.getLast?
  link : ∀ l1 a l2, xs = l1 ++ a :: l2 → s.links a false = l1.getLast? ∧ s.links a true = l2.head?

/-- Exchanges the directions. -/
def St.flip (s : St) : St := { links := fun n d => s.links n (!d), nodes := fun d => s.nodes (!d) }

@[simp] theorem flip_flip (s : St) : s.flip.flip = s := by
  unfold St.flip; simp

theorem Rep.flip {s : St} {xs : List Nat} (h : Rep s xs) : Rep s.flip xs.reverse := by
  refine ⟨List.nodup_reverse.2 h.nodup, ?_, ?_, ?_⟩
  · show s.nodes true = _
    rw [h.last, List.head?_reverse]
  · show s.nodes false = _
    rw [h.first, List.getLast?_reverse]
  · intro l1 a l2 he
    have : xs = l2.reverse ++ a :: l1.reverse := by
      rw [← List.reverse_reverse xs, he]; simp
    obtain ⟨h1, h2⟩ := h.link _ _ _ this
    refine ⟨?_, ?_⟩
    · show s.links a true = _
      rw [h2, List.head?_reverse]
    · show s.links a false = _
      rw [h1, List.getLast?_reverse]

/-- In a list without duplicates a node has one position. -/
theorem split_unique {l1 l2 m1 m2 : List Nat} {a : Nat} (hn : (l1 ++ a :: l2).Nodup)
    (h : l1 ++ a :: l2 = m1 ++ a :: m2) : l1 = m1 ∧ l2 = m2 := by
  have h1 : a ∉ l1 := by
    intro hm
    rw [List.nodup_append] at hn
    exact hn.2.2 a hm a (by simp) rfl
  have h2 : a ∉ m1 := by
    rw [h] at hn
    intro hm
    rw [List.nodup_append] at hn
    exact hn.2.2 a hm a (by simp) rfl
  induction l1 generalizing m1 with
  | nil =>
    cases m1 with
    | nil => simp at h; exact ⟨rfl, h⟩
    | cons b m1 => simp at h; exact absurd (by simp [h.1]) h2
  | cons c l1 ih =>
    cases m1 with
    | nil => simp at h; exact absurd (by simp [h.1]) h1
    | cons b m1 =>
      simp only [List.cons_append, List.cons.injEq] at h
      have hn' : (l1 ++ a :: l2).Nodup := by
        rw [List.cons_append, List.nodup_cons] at hn; exact hn.2
      obtain ⟨g1, g2⟩ := ih hn' h.2 (fun hm => h1 (by simp [hm])) (fun hm => h2 (by simp [hm]))
      exact ⟨by rw [h.1, g1], g2⟩

theorem Rep.mk' {s : St} {xs : List Nat} (hn : xs.Nodup) (h1 : s.nodes false = xs.head?)
    (h2 : s.nodes true = xs.getLast?)
    (h3 : ∀ a ∈ xs, ∃ l1 l2, xs = l1 ++ a :: l2 ∧ s.links a false = l1.getLast? ∧ s.links a true = l2.head?) :
    Rep s xs := by
  refine ⟨hn, h1, h2, ?_⟩
  intro l1 a l2 he
  obtain ⟨m1, m2, e, g1, g2⟩ := h3 a (by rw [he]; simp)
  rw [he] at e hn
  obtain ⟨q1, q2⟩ := split_unique hn e
  rw [q1, q2]
  exact ⟨g1, g2⟩

theorem nodup_split {l1 l2 : List Nat} {a : Nat} (hn : (l1 ++ a :: l2).Nodup) :
    (∀ x ∈ l1, x ≠ a) ∧ (∀ x ∈ l2, x ≠ a) ∧ (∀ x ∈ l1, ∀ y ∈ l2, x ≠ y) := by
  rw [List.nodup_append, List.nodup_cons] at hn
  obtain ⟨h1, ⟨h2, h3⟩, h4⟩ := hn
  refine ⟨fun x hx => h4 x hx a (by simp), fun x hx he => h2 (by rw [← he]; exact hx), ?_⟩
  intro x hx y hy
  exact h4 x hx y (by simp [hy])

theorem getLast?_snoc (l : List Nat) (a : Nat) : (l ++ [a]).getLast? = some a := by simp

/-- `insert_node` behind a reference node. -/
theorem insertNode_rep {s : St} {A B : List Nat} {r n : Nat} (h : Rep s (A ++ r :: B)) (hn : n ∉ A ++ r :: B) :
    Rep (insertNode s r n true) (A ++ r :: n :: B) ∧
    ∀ m d, m ∉ A ++ r :: n :: B → (insertNode s r n true).links m d = s.links m d := by
  obtain ⟨n1, n2, n3⟩ := nodup_split h.nodup
  have hnr : n ≠ r := fun e => hn (by simp [e])
  have hnA : ∀ x ∈ A, x ≠ n := fun x hx e => hn (by simp [← e, hx])
  have hnB : ∀ x ∈ B, x ≠ n := fun x hx e => hn (by simp [← e, hx])
  have hnodup : (A ++ r :: n :: B).Nodup := by
    have := h.nodup
    simp only [List.nodup_append, List.nodup_cons, List.mem_cons, List.mem_append, not_or] at this hn ⊢
    refine ⟨this.1, ⟨⟨fun e => hnr e.symm, this.2.1.1⟩, hn.2.2, this.2.1.2⟩, ?_⟩
    intro x hx y hy
    rcases hy with rfl | rfl | hy
    · exact this.2.2 x hx _ (.inl rfl)
    · exact hnA x hx
    · exact this.2.2 x hx y (.inr hy)
  obtain ⟨hr1, hr2⟩ := h.link A r B rfl
  have hlink : ∀ l1 a l2, A ++ r :: B = l1 ++ a :: l2 → s.links a false = l1.getLast? ∧ s.links a true = l2.head? :=
    h.link
  cases B with
  | nil =>
    have hs : insertNode s r n true = (((s.setLink r true (some n)).setNode true (some n)).setLink n false (some r)).setLink
        n true none := by
      unfold insertNode; rw [hr2]; rfl
    rw [hs]
    refine ⟨Rep.mk' hnodup ?_ ?_ ?_, ?_⟩
    · simp only [St.setLink, St.setNode]
      rw [if_neg (by simp), h.first]
      cases A <;> rfl
    · simp [St.setLink, St.setNode]
    · intro a ha
      simp only [List.mem_append, List.mem_cons, List.not_mem_nil, or_false] at ha
      rcases ha with ha | rfl | rfl
      · obtain ⟨A1, A2, rfl⟩ := List.append_of_mem ha
        obtain ⟨q1, q2⟩ := hlink A1 a (A2 ++ [r]) (by simp)
        refine ⟨A1, A2 ++ [r, n], by simp, ?_, ?_⟩
        · simp only [St.setLink, St.setNode]
          have := hnA a ha; have := n1 a ha
          simp [*]
        · simp only [St.setLink, St.setNode]
          have := hnA a ha; have := n1 a ha
          simp [*]
      · refine ⟨A, [n], rfl, ?_, ?_⟩
        · simp [St.setLink, St.setNode, hnr.symm, hr1]
        · simp [St.setLink, St.setNode, hnr.symm]
      · refine ⟨A ++ [r], [], by simp, ?_, ?_⟩
        · simp [St.setLink, St.setNode]
        · simp [St.setLink, St.setNode]
    · intro m d hm
      simp only [List.mem_append, List.mem_cons, List.not_mem_nil, or_false, not_or] at hm
      simp [St.setLink, St.setNode, hm.2.1, hm.2.2]
  | cons c B =>
    have hcn : c ≠ n := hnB c (by simp)
    have hcr : c ≠ r := n2 c (by simp)
    have hs : insertNode s r n true = (((s.setLink r true (some n)).setLink c false (some n)).setLink n false (some r)).setLink
        n true (some c) := by
      unfold insertNode; rw [hr2]; rfl
    rw [hs]
    refine ⟨Rep.mk' hnodup ?_ ?_ ?_, ?_⟩
    · simp only [St.setLink, St.setNode]
      rw [h.first]
      cases A <;> rfl
    · simp only [St.setLink, St.setNode]
      rw [h.last]
      simp
    · intro a ha
      simp only [List.mem_append, List.mem_cons] at ha
      rcases ha with ha | rfl | rfl | rfl | ha
      · obtain ⟨A1, A2, rfl⟩ := List.append_of_mem ha
        obtain ⟨q1, q2⟩ := hlink A1 a (A2 ++ r :: c :: B) (by simp)
        have g1 := hnA a ha
        have g2 := n1 a ha
        have g3 : a ≠ c := n3 a ha c (by simp)
        refine ⟨A1, A2 ++ r :: n :: c :: B, by simp, ?_, ?_⟩
        · simp [St.setLink, g1, g2, g3, q1]
        · simp [St.setLink, g1, g2, g3, q2]
      · refine ⟨A, n :: c :: B, rfl, ?_, ?_⟩
        · simp [St.setLink, hnr.symm, hcr.symm, hr1]
        · simp [St.setLink, hnr.symm, hcr.symm]
      · refine ⟨A ++ [r], c :: B, by simp, ?_, ?_⟩
        · simp [St.setLink]
        · simp [St.setLink]
      · obtain ⟨q1, q2⟩ := hlink (A ++ [r]) a B (by simp)
        refine ⟨A ++ [r, n], B, by simp, ?_, ?_⟩
        · simp [St.setLink, hcn]
        · simp [St.setLink, hcn, hcr, q2]
      · obtain ⟨B1, B2, rfl⟩ := List.append_of_mem ha
        obtain ⟨q1, q2⟩ := hlink (A ++ r :: c :: B1) a B2 (by simp)
        have g1 := hnB a (by simp)
        have g2 := n2 a (by simp)
        have g3 : a ≠ c := by
          have := h.nodup
          rw [List.nodup_append, List.nodup_cons, List.nodup_cons] at this
          intro e
          exact this.2.1.2.1 (by simp [← e])
        refine ⟨A ++ r :: n :: c :: B1, B2, by simp, ?_, ?_⟩
        · simp only [St.setLink, g1, g2, g3, false_and, if_false, q1]
          simp
        · simp [St.setLink, g1, g2, g3, q2]
    · intro m d hm
      simp only [List.mem_append, List.mem_cons, not_or] at hm
      simp [St.setLink, hm.2.1, hm.2.2.1, hm.2.2.2.1]

/-- Appending a node. -/
theorem addNode_rep {s : St} {xs : List Nat} {n : Nat} (h : Rep s xs) (hn : n ∉ xs) (hz : s.links n true = none) :
    Rep (addNode s n true) (xs ++ [n]) ∧ ∀ m d, m ∉ xs ++ [n] → (addNode s n true).links m d = s.links m d := by
  rcases List.eq_nil_or_concat xs with rfl | ⟨A, r, rfl⟩
  · have hs : addNode s n true = ((s.setLink n false none).setNode true (some n)).setNode false (some n) := by
      unfold addNode; rw [h.last]; rfl
    rw [hs]
    refine ⟨Rep.mk' (by simp) (by simp [St.setNode]) (by simp [St.setLink, St.setNode]) ?_, ?_⟩
    · intro a ha
      have : a = n := by simpa using ha
      subst this
      exact ⟨[], [], rfl, by simp [St.setLink, St.setNode], by simp [St.setLink, St.setNode, hz]⟩
    · intro m d hm
      simp at hm
      simp [St.setLink, St.setNode, hm]
  · rw [List.concat_eq_append] at *
    -- same as inserting behind the last node
    have hlast : s.nodes true = some r := by rw [h.last]; simp
    obtain ⟨hr1, hr2⟩ := h.link A r [] rfl
    have hnr : n ≠ r := fun e => hn (by simp [e])
    have hs : addNode s n true = insertNode s r n true := by
      unfold addNode insertNode
      rw [hlast, hr2]
      simp only [St.setLink, St.setNode, Bool.not_true]
      congr 1
      funext m d
      simp only [List.head?_nil]
      by_cases hm : m = n
      · subst hm
        cases d <;> simp [hnr, hz]
      · simp [hm]
    rw [hs]
    have := insertNode_rep (n := n) h hn
    simpa using this

/-- Unlinking a node. -/
theorem unlink_rep {s : St} {A B : List Nat} {n : Nat} (h : Rep s (A ++ n :: B)) :
    Rep (unlink s n) (A ++ B) ∧ (∀ d, (unlink s n).links n d = none) ∧
    ∀ m d, m ∉ A ++ n :: B → (unlink s n).links m d = s.links m d := by
  obtain ⟨n1, n2, n3⟩ := nodup_split h.nodup
  obtain ⟨hp, hx⟩ := h.link A n B rfl
  have hnodup : (A ++ B).Nodup := by
    have := h.nodup
    simp only [List.nodup_append, List.nodup_cons, List.mem_cons] at this ⊢
    exact ⟨this.1, this.2.1.2, fun x hx y hy => this.2.2 x hx y (.inr hy)⟩
  have hlinkA : ∀ A1 a A2, A = A1 ++ a :: A2 →
      s.links a false = A1.getLast? ∧ s.links a true = (A2 ++ n :: B).head? := by
    intro A1 a A2 e; subst e; exact h.link A1 a (A2 ++ n :: B) (by simp)
  have hlinkB : ∀ B1 a B2, B = B1 ++ a :: B2 →
      s.links a false = (A ++ n :: B1).getLast? ∧ s.links a true = B2.head? := by
    intro B1 a B2 e; subst e; exact h.link (A ++ n :: B1) a B2 (by simp)
  have hfirst := h.first
  have hlast := h.last
  rcases List.eq_nil_or_concat A with rfl | ⟨A, p, rfl⟩
  · cases B with
    | nil =>
      have hs : unlink s n = (((s.setNode false none).setNode true none).setLink n false none).setLink n true none := by
        unfold unlink; rw [hp, hx]; rfl
      rw [hs]
      refine ⟨Rep.mk' (by simp) (by simp [St.setLink, St.setNode]) (by simp [St.setLink, St.setNode])
        (by intro a ha; simp at ha), ?_, ?_⟩
      · intro d; cases d <;> simp [St.setLink, St.setNode]
      · intro m d hm; simp at hm; simp [St.setLink, St.setNode, hm]
    | cons c B =>
      have hcn : c ≠ n := n2 c (by simp)
      have hs : unlink s n = (((s.setNode false (some c)).setLink c false none).setLink n false none).setLink n true none := by
        unfold unlink; rw [hp, hx]; rfl
      rw [hs]
      refine ⟨Rep.mk' hnodup (by simp [St.setLink, St.setNode]) ?_ ?_, ?_, ?_⟩
      · simp only [St.setLink, St.setNode]
        rw [if_neg (by simp), hlast]; simp
      · intro a ha
        simp only [List.nil_append, List.mem_cons] at ha
        rcases ha with rfl | ha
        · obtain ⟨q1, q2⟩ := hlinkB [] a B rfl
          exact ⟨[], B, rfl, by simp [St.setLink, hcn], by simp [St.setLink, St.setNode, hcn, q2]⟩
        · obtain ⟨B1, B2, rfl⟩ := List.append_of_mem ha
          obtain ⟨q1, q2⟩ := hlinkB (c :: B1) a B2 rfl
          have g1 : a ≠ n := n2 a (by simp)
          have g2 : a ≠ c := by
            rw [List.nil_append, List.nodup_cons] at hnodup
            intro e; exact hnodup.1 (by simp [← e])
          refine ⟨c :: B1, B2, rfl, ?_, ?_⟩
          · simp only [St.setLink, St.setNode, g1, g2, false_and, if_false, q1]; simp
          · simp [St.setLink, St.setNode, g1, g2, q2]
      · intro d; cases d <;> simp [St.setLink, St.setNode]
      · intro m d hm
        simp at hm
        simp [St.setLink, St.setNode, hm.1, hm.2.1]
  · rw [List.concat_eq_append] at *
    have hpn : p ≠ n := n1 p (by simp)
    have hpp : s.links n false = some p := by rw [hp]; simp
    cases B with
    | nil =>
      have hs : unlink s n = (((s.setLink p true none).setNode true (some p)).setLink n false none).setLink n true none := by
        unfold unlink; rw [hpp, hx]; rfl
      rw [hs]
      refine ⟨Rep.mk' hnodup ?_ (by simp [St.setLink, St.setNode]) ?_, ?_, ?_⟩
      · simp only [St.setLink, St.setNode]
        rw [if_neg (by simp), hfirst]
        cases A <;> rfl
      · intro a ha
        simp only [List.append_nil, List.mem_append, List.mem_singleton] at ha
        rcases ha with ha | rfl
        · obtain ⟨A1, A2, rfl⟩ := List.append_of_mem ha
          obtain ⟨q1, q2⟩ := hlinkA A1 a (A2 ++ [p]) (by simp)
          have g1 : a ≠ n := n1 a (by simp)
          have g2 : a ≠ p := by
            rw [List.append_nil, List.nodup_append] at hnodup
            exact hnodup.2.2 a (by simp) p (by simp)
          refine ⟨A1, A2 ++ [p], by simp, ?_, ?_⟩
          · simp [St.setLink, St.setNode, g1, g2, q1]
          · simp [St.setLink, St.setNode, g1, g2, q2]
        · obtain ⟨q1, q2⟩ := hlinkA A a [] rfl
          refine ⟨A, [], by simp, ?_, ?_⟩
          · simp [St.setLink, St.setNode, hpn, q1]
          · simp [St.setLink, St.setNode, hpn]
      · intro d; cases d <;> simp [St.setLink, St.setNode]
      · intro m d hm
        simp at hm
        simp [St.setLink, St.setNode, hm.2.1, hm.2.2]
    | cons c B =>
      have hcn : c ≠ n := n2 c (by simp)
      have hpc : p ≠ c := n3 p (by simp) c (by simp)
      have hs : unlink s n = (((s.setLink p true (some c)).setLink c false (some p)).setLink n false none).setLink n true none := by
        unfold unlink; rw [hpp, hx]; rfl
      rw [hs]
      refine ⟨Rep.mk' hnodup ?_ ?_ ?_, ?_, ?_⟩
      · simp only [St.setLink]
        rw [hfirst]
        cases A <;> rfl
      · simp only [St.setLink]
        rw [hlast]; simp
      · intro a ha
        simp only [List.mem_append, List.mem_cons, List.not_mem_nil, or_false] at ha
        rcases ha with (ha | rfl) | rfl | ha
        · obtain ⟨A1, A2, rfl⟩ := List.append_of_mem ha
          obtain ⟨q1, q2⟩ := hlinkA A1 a (A2 ++ [p]) (by simp)
          have g1 : a ≠ n := n1 a (by simp)
          have g2 : a ≠ p := by
            rw [List.nodup_append, List.nodup_append] at hnodup
            exact hnodup.1.2.2 a (by simp) p (by simp)
          have g3 : a ≠ c := n3 a (by simp) c (by simp)
          refine ⟨A1, A2 ++ p :: c :: B, by simp, ?_, ?_⟩
          · simp [St.setLink, g1, g2, g3, q1]
          · simp only [St.setLink, g1, g2, g3, false_and, if_false, q2]; cases A2 <;> rfl
        · obtain ⟨q1, q2⟩ := hlinkA A a [] rfl
          refine ⟨A, c :: B, by simp, ?_, ?_⟩
          · simp [St.setLink, hpn, hpc, q1]
          · simp [St.setLink, hpn, hpc]
        · obtain ⟨q1, q2⟩ := hlinkB [] a B rfl
          refine ⟨A ++ [p], B, by simp, ?_, ?_⟩
          · simp [St.setLink, hcn]
          · simp [St.setLink, hcn, hpc.symm, q2]
        · obtain ⟨B1, B2, rfl⟩ := List.append_of_mem ha
          obtain ⟨q1, q2⟩ := hlinkB (c :: B1) a B2 rfl
          have g1 : a ≠ n := n2 a (by simp)
          have g2 : a ≠ c := by
            rw [List.nodup_append, List.nodup_cons] at hnodup
            intro e; exact hnodup.2.1.1 (by simp [← e])
          have g3 : a ≠ p := fun e => n3 p (by simp) a (by simp) e.symm
          refine ⟨A ++ p :: c :: B1, B2, by simp, ?_, ?_⟩
          · simp only [St.setLink, g1, g2, g3, false_and, if_false, q1]; simp
          · simp [St.setLink, g1, g2, g3, q2]
      · intro d; cases d <;> simp [St.setLink]
      · intro m d hm
        simp at hm
        simp [St.setLink, hm.2.1, hm.2.2.1, hm.2.2.2.1]

/-- Taking the first node. -/
theorem popFirst_rep {s : St} {B : List Nat} {n : Nat} (h : Rep s (n :: B)) :
    ∃ s', popEnd s false = some (s', n) ∧ Rep s' B ∧ (∀ d, s'.links n d = none) ∧
      ∀ m d, m ∉ n :: B → s'.links m d = s.links m d := by
  obtain ⟨hp, hx⟩ := h.link [] n B rfl
  have hu := unlink_rep (A := []) h
  have key : popEnd s false = some (unlink s n, n) := by
    unfold popEnd unlink
    rw [h.first]
    simp only [List.head?_cons, Bool.not_false]
    cases B with
    | nil =>
      rw [hx, hp]
      simp only [List.head?_nil, List.getLast?_nil, St.setNode, St.setLink]
      congr 1
      congr 1
      congr 1
      funext m d
      by_cases hm : m = n
      · subst hm
        cases d <;> simp [hx, hp]
      · simp [hm]
    | cons c B =>
      rw [hx, hp]
      simp only [List.head?_cons, List.getLast?_nil, St.setNode, St.setLink]
      congr 1
      congr 1
      congr 1
      funext m d
      by_cases hm : m = n
      · subst hm
        cases d <;> simp [hp]
      · simp [hm]
  exact ⟨_, key, hu.1, hu.2.1, hu.2.2⟩

/-! ## The other direction -/

theorem flip_addNode (s : St) (n : Nat) (d : Bool) : (addNode s.flip n d).flip = addNode s n (!d) := by
  unfold addNode St.flip St.setLink St.setNode
  simp only
  cases s.nodes !d with
  | none =>
    simp only [Bool.not_not]
    congr 1
    · funext m e; cases d <;> cases e <;> simp
    · funext e; cases d <;> cases e <;> simp
  | some p =>
    simp only [Bool.not_not]
    congr 1
    · funext m e; cases d <;> cases e <;> simp
    · funext e; cases d <;> cases e <;> simp

theorem flip_insertNode (s : St) (r n : Nat) (d : Bool) : (insertNode s.flip r n d).flip = insertNode s r n (!d) := by
  unfold insertNode St.flip St.setLink St.setNode
  simp only
  cases s.links r !d with
  | none =>
    simp only [Bool.not_not]
    congr 1
    · funext m e; cases d <;> cases e <;> simp
    · funext e; cases d <;> cases e <;> simp
  | some p =>
    simp only [Bool.not_not]
    congr 1
    funext m e; cases d <;> cases e <;> simp

theorem flip_popEnd (s : St) (d : Bool) : (popEnd s.flip d).map (fun r => (r.1.flip, r.2)) = popEnd s (!d) := by
  unfold popEnd
  show Option.map _ (match s.nodes !d with | none => none | some n => _) = _
  cases s.nodes !d with
  | none => rfl
  | some n =>
    show Option.map _ (match s.links n (! !d) with | some m => _ | none => _) = _
    simp only [Bool.not_not]
    cases hln : s.links n d with
    | none =>
      simp only [Option.map_some, St.flip, St.setNode, Bool.not_not]
      congr 3
      funext e; cases d <;> cases e <;> simp [hln]
    | some m =>
      simp only [Option.map_some, St.flip, St.setNode, St.setLink, Bool.not_not]
      congr 3
      · funext m e; cases d <;> cases e <;> simp
      · funext e; cases d <;> cases e <;> simp [hln]

theorem Rep.unflip {s : St} {xs : List Nat} (h : Rep s.flip xs.reverse) : Rep s xs := by
  have := h.flip
  simpa using this

/-! ## Iteration -/

theorem walk_split {s : St} {xs : List Nat} (h : Rep s xs) : ∀ (l2 l1 : List Nat) (fuel : Nat), xs = l1 ++ l2 →
    l2.length ≤ fuel → walk s true fuel l2.head? = l2 := by
  intro l2
  induction l2 with
  | nil => intro l1 fuel _ _; cases fuel <;> rfl
  | cons a l2 ih =>
    intro l1 fuel he hf
    cases fuel with
    | zero => simp at hf
    | succ fuel =>
      simp only [List.head?_cons, walk]
      rw [(h.link l1 a l2 he).2]
      rw [ih (l1 ++ [a]) fuel (by simp [he]) (by simpa using hf)]

theorem walk_forward {s : St} {xs : List Nat} (h : Rep s xs) {fuel : Nat} (hf : xs.length ≤ fuel) :
    walk s true fuel (s.nodes false) = xs := by
  rw [h.first]; exact walk_split h xs [] fuel rfl hf

theorem walk_flip (s : St) (d : Bool) : ∀ (fuel : Nat) (n : Option Nat),
    walk s.flip d fuel n = walk s (!d) fuel n := by
  intro fuel
  induction fuel with
  | zero => intro n; rfl
  | succ fuel ih =>
    intro n
    cases n with
    | none => rfl
    | some n => simp only [walk]; rw [ih]; rfl

theorem walk_backward {s : St} {xs : List Nat} (h : Rep s xs) {fuel : Nat} (hf : xs.length ≤ fuel) :
    walk s false fuel (s.nodes true) = xs.reverse := by
  have := walk_forward h.flip (fuel := fuel) (by simpa using hf)
  rw [walk_flip] at this
  exact this

/-! ## Histories -/

theorem insAfter_split {r n : Nat} : ∀ {A B : List Nat}, r ∉ A → insAfter r n (A ++ r :: B) = A ++ r :: n :: B := by
  intro A
  induction A with
  | nil => intro B _; simp [insAfter]
  | cons a A ih =>
    intro B h
    simp only [List.mem_cons, not_or] at h
    rw [List.cons_append, insAfter, if_neg (fun e => h.1 e.symm), ih h.2]; rfl

theorem insBefore_split {r n : Nat} : ∀ {A B : List Nat}, r ∉ A → insBefore r n (A ++ r :: B) = A ++ n :: r :: B := by
  intro A
  induction A with
  | nil => intro B _; simp [insBefore]
  | cons a A ih =>
    intro B h
    simp only [List.mem_cons, not_or] at h
    rw [List.cons_append, insBefore, if_neg (fun e => h.1 e.symm), ih h.2]; rfl

/-- The invariant: the links represent the list and all other nodes, except the stale ones, have no links. -/
structure Inv (s : St) (x : Spec) : Prop where
  rep : Rep s x.items
  clean : ∀ n d, n ∉ x.items → n ∉ x.stale → s.links n d = none

theorem step_inv {s : St} {x : Spec} (hi : Inv s x) (op : Op) (hl : x.Legal op) :
    ∃ s', step s op = some (s', (x.step op).2) ∧ Inv s' (x.step op).1 := by
  obtain ⟨hr, hc⟩ := hi
  cases op with
  | construct n =>
    have hl' : n ∉ x.items := hl
    refine ⟨_, rfl, ⟨⟨hr.nodup, hr.first, hr.last, ?_⟩, ?_⟩⟩
    · intro l1 a l2 he
      have han : a ≠ n := by
        intro e
        apply hl'
        have he' : x.items = l1 ++ a :: l2 := he
        rw [he']; simp [e]
      obtain ⟨h1, h2⟩ := hr.link l1 a l2 he
      simp [construct, St.setLink, han, h1, h2]
    · intro m d hm1 hm2
      show (construct s n).links m d = none
      by_cases hmn : m = n
      · subst hmn; cases d <;> simp [construct, St.setLink]
      · have : m ∉ x.stale := by
          intro h; apply hm2
          show m ∈ x.stale.filter (· ≠ n)
          simp [h, hmn]
        simp [construct, St.setLink, hmn, hc m d hm1 this]
  | reset =>
    refine ⟨_, rfl, ⟨⟨List.nodup_nil, by simp [reset, St.setNode, Spec.step], by simp [reset, St.setNode, Spec.step], ?_⟩, ?_⟩⟩
    · intro l1 a l2 he
      have he' : ([] : List Nat) = l1 ++ a :: l2 := he
      simp at he'
    · intro m d _ hm
      have hm' : m ∉ x.items ++ x.stale := hm
      simp only [List.mem_append, not_or] at hm'
      exact hc m d hm'.1 hm'.2
  | resetTo n =>
    refine ⟨_, rfl, ⟨Rep.mk' (List.nodup_singleton n) (by simp [resetTo, St.setNode, Spec.step])
      (by simp [resetTo, St.setNode, Spec.step]) ?_, ?_⟩⟩
    · intro a ha
      have ha' : a = n := by simpa [Spec.step] using ha
      subst ha'
      exact ⟨[], [], rfl, by simp [resetTo, St.setLink, St.setNode], by simp [resetTo, St.setLink, St.setNode]⟩
    · intro m d hm0 hm
      have hm' : m ∉ x.items ++ x.stale := hm
      have hmn : m ≠ n := by simpa [Spec.step] using hm0
      simp only [List.mem_append, not_or] at hm'
      simp [resetTo, St.setLink, St.setNode, hmn, hc m d hm'.1 hm'.2]
  | append n =>
    obtain ⟨g1, g2⟩ := addNode_rep hr hl.1 (hc n true hl.1 hl.2)
    refine ⟨_, rfl, ⟨g1, ?_⟩⟩
    intro m d hm1 hm2
    rw [g2 m d hm1]
    have hm1' : m ∉ x.items ++ [n] := hm1
    simp only [List.mem_append, not_or] at hm1'
    exact hc m d hm1'.1 hm2
  | prepend n =>
    obtain ⟨g1, g2⟩ := addNode_rep (n := n) hr.flip (by simpa using hl.1) (hc n false hl.1 hl.2)
    have he := flip_addNode s n true
    have g1' : Rep (addNode s n false) (n :: x.items) := by
      rw [← Bool.not_true, ← he]
      apply Rep.unflip
      rw [flip_flip]
      simpa using g1
    refine ⟨_, rfl, ⟨g1', ?_⟩⟩
    intro m d hm1 hm2
    have hm1' : m ∉ n :: x.items := hm1
    have : (addNode s n false).links m d = s.links m d := by
      rw [← Bool.not_true, ← he]
      show (addNode s.flip n true).links m (!d) = _
      rw [g2 m (!d) (by simp at hm1' ⊢; exact ⟨hm1'.2, hm1'.1⟩)]
      show s.links m (! !d) = _
      rw [Bool.not_not]
    rw [this]
    simp only [List.mem_cons, not_or] at hm1'
    exact hc m d hm1'.2 hm2
  | insertAfter ref n =>
    obtain ⟨A, B, hAB⟩ := List.append_of_mem hl.1
    have hrA : ref ∉ A := fun h => (nodup_split (hAB ▸ hr.nodup)).1 ref h rfl
    obtain ⟨g1, g2⟩ := insertNode_rep (n := n) (hAB ▸ hr) (hAB ▸ hl.2)
    have hsp : insAfter ref n x.items = A ++ ref :: n :: B := by rw [hAB]; exact insAfter_split hrA
    refine ⟨_, rfl, ⟨?_, ?_⟩⟩
    · show Rep _ (insAfter ref n x.items)
      rw [hsp]; exact g1
    · intro m d hm1 hm2
      have hm1' : m ∉ insAfter ref n x.items := hm1
      rw [hsp] at hm1'
      show (insertNode s ref n true).links m d = none
      rw [g2 m d hm1']
      apply hc m d _ hm2
      rw [hAB]
      simp at hm1' ⊢
      exact ⟨hm1'.1, hm1'.2.1, hm1'.2.2.2⟩
  | insertBefore ref n =>
    obtain ⟨A, B, hAB⟩ := List.append_of_mem hl.1
    have hrA : ref ∉ A := fun h => (nodup_split (hAB ▸ hr.nodup)).1 ref h rfl
    have hrf : Rep s.flip (B.reverse ++ ref :: A.reverse) := by
      have := hr.flip
      rw [hAB] at this
      simpa using this
    obtain ⟨g1, g2⟩ := insertNode_rep (n := n) hrf (by have := hl.2; rw [hAB] at this; simp at this ⊢; tauto)
    have he := flip_insertNode s ref n true
    have hsp : insBefore ref n x.items = A ++ n :: ref :: B := by rw [hAB]; exact insBefore_split hrA
    refine ⟨_, rfl, ⟨?_, ?_⟩⟩
    · show Rep (insertNode s ref n false) (insBefore ref n x.items)
      rw [hsp, ← Bool.not_true, ← he]
      apply Rep.unflip
      rw [flip_flip]
      simpa using g1
    · intro m d hm1 hm2
      have hm1' : m ∉ insBefore ref n x.items := hm1
      rw [hsp] at hm1'
      show (insertNode s ref n false).links m d = none
      rw [← Bool.not_true, ← he]
      show (insertNode s.flip ref n true).links m (!d) = none
      rw [g2 m (!d) (by simp at hm1' ⊢; tauto)]
      show s.links m (! !d) = none
      rw [Bool.not_not]
      apply hc m d _ hm2
      rw [hAB]
      simp at hm1' ⊢
      tauto
  | unlink n =>
    have hl' : n ∈ x.items := hl
    obtain ⟨A, B, hAB⟩ := List.append_of_mem hl'
    have hnA : n ∉ A := fun h => (nodup_split (hAB ▸ hr.nodup)).1 n h rfl
    obtain ⟨g1, g2, g3⟩ := unlink_rep (hAB ▸ hr)
    have hsp : x.items.erase n = A ++ B := by
      rw [hAB, List.erase_append_right _ hnA]; simp
    refine ⟨_, rfl, ⟨?_, ?_⟩⟩
    · show Rep _ (x.items.erase n)
      rw [hsp]; exact g1
    · intro m d hm1 hm2
      have hm1' : m ∉ x.items.erase n := hm1
      rw [hsp] at hm1'
      show (unlink s n).links m d = none
      by_cases hmn : m = n
      · subst hmn; exact g2 d
      · have : m ∉ A ++ n :: B := by simp at hm1' ⊢; tauto
        rw [g3 m d this]
        exact hc m d (by rw [hAB]; exact this) hm2
  | popFirst =>
    have hl' : x.items ≠ [] := hl
    obtain ⟨n, B, hB⟩ := List.exists_cons_of_ne_nil hl'
    obtain ⟨s', e, g1, g2, g3⟩ := popFirst_rep (hB ▸ hr)
    refine ⟨s', ?_, ⟨?_, ?_⟩⟩
    · simp only [step, e, Option.map_some, Spec.step, hB, List.head?_cons]
    · show Rep s' x.items.tail
      rw [hB]; exact g1
    · intro m d hm1 hm2
      have hm1' : m ∉ x.items.tail := hm1
      rw [hB] at hm1'
      by_cases hmn : m = n
      · subst hmn; exact g2 d
      · have : m ∉ n :: B := by simp at hm1' ⊢; tauto
        rw [g3 m d this]
        exact hc m d (by rw [hB]; exact this) hm2
  | pop =>
    have hl' : x.items ≠ [] := hl
    rcases List.eq_nil_or_concat x.items with h | ⟨A, n, hA⟩
    · exact absurd h hl'
    rw [List.concat_eq_append] at hA
    have hrf : Rep s.flip (n :: A.reverse) := by
      have := hr.flip
      rw [hA] at this
      simpa using this
    obtain ⟨s', e, g1, g2, g3⟩ := popFirst_rep hrf
    have he := flip_popEnd s false
    rw [e] at he
    simp only [Option.map_some, Bool.not_false] at he
    refine ⟨s'.flip, ?_, ⟨?_, ?_⟩⟩
    · simp only [step, ← he, Option.map_some, Spec.step, hA, List.getLast?_append, List.getLast?_singleton,
        Option.some_or]
    · show Rep s'.flip x.items.dropLast
      rw [hA, List.dropLast_concat]
      have := g1.flip
      simpa using this
    · intro m d hm1 hm2
      have hm1' : m ∉ x.items.dropLast := hm1
      rw [hA, List.dropLast_concat] at hm1'
      show s'.links m (!d) = none
      by_cases hmn : m = n
      · subst hmn; exact g2 _
      · have : m ∉ n :: A.reverse := by simp; tauto
        rw [g3 m (!d) this]
        show s.links m (! !d) = none
        rw [Bool.not_not]
        exact hc m d (by rw [hA]; simp; tauto) hm2

/-- Runs a history. -/
def run (s : St) : List Op → Option St
  | [] => some s
  | op :: ops =>
    match step s op with
    | none => none
    | some (s, _) => run s ops

theorem run_append (s : St) (ops : List Op) (op : Op) :
    run s (ops ++ [op]) = (run s ops).bind fun s => (step s op).map (·.1) := by
  induction ops generalizing s with
  | nil =>
    simp only [List.nil_append, run, Option.bind_some]
    cases step s op <;> rfl
  | cons o ops ih =>
    simp only [List.cons_append, run]
    cases step s o with
    | none => rfl
    | some r => exact ih r.1

theorem history_inv {ops : List Op} {x : Spec} (h : History ops x) : ∃ s, run St.empty ops = some s ∧ Inv s x := by
  induction h with
  | nil =>
    exact ⟨St.empty, rfl, ⟨List.nodup_nil, rfl, rfl, by intro l1 a l2 he; simp at he⟩, fun _ _ _ _ => rfl⟩
  | snoc op _ hl ih =>
    obtain ⟨s, e, hi⟩ := ih
    obtain ⟨s', e', hi'⟩ := step_inv hi op hl
    exact ⟨s', by rw [run_append, e]; simp [e'], hi'⟩

/-- **C34**: after every history of operations, iterating over the list forward visits exactly the nodes of
the list the history describes, in order, and iterating backward visits them in reverse order;
`first`, `last` and `is_empty` agree with it. -/
theorem C34_list_refines_sequence {ops : List Op} {x : Spec} (h : History ops x) :
    ∃ s, run St.empty ops = some s ∧
      (∀ fuel, x.items.length ≤ fuel → walk s true fuel (s.nodes false) = x.items) ∧
      (∀ fuel, x.items.length ≤ fuel → walk s false fuel (s.nodes true) = x.items.reverse) ∧
      s.nodes false = x.items.head? ∧ s.nodes true = x.items.getLast? ∧
      (s.nodes false = none ↔ x.items = []) ∧ x.items.Nodup := by
  obtain ⟨s, e, hi⟩ := history_inv h
  refine ⟨s, e, fun f hf => walk_forward hi.rep hf, fun f hf => walk_backward hi.rep hf, hi.rep.first, hi.rep.last,
    ?_, hi.rep.nodup⟩
  rw [hi.rep.first, List.head?_eq_none_iff]

/-- **C34**: no legal operation violates an assertion, and it returns the node it should (the
first node for `pop_first`, the last one for `pop`, the node itself for `unlink`). -/
theorem C34_operations_succeed {ops : List Op} {x : Spec} (h : History ops x) (op : Op) (hl : x.Legal op) :
    ∃ s s', run St.empty ops = some s ∧ step s op = some (s', (x.step op).2) := by
  obtain ⟨s, e, hi⟩ := history_inv h
  obtain ⟨s', e', _⟩ := step_inv hi op hl
  exact ⟨s, s', e, e'⟩

/-- A concrete history. -/
example : History [.append 5, .prepend 3, .insertAfter 3 4, .unlink 5, .append 5, .popFirst] ⟨[4, 5], []⟩ := by
  have h0 := History.nil
  have h1 := h0.snoc (.append 5) (by simp [Spec.Legal])
  have h2 := h1.snoc (.prepend 3) (by simp [Spec.Legal, Spec.step])
  have h3 := h2.snoc (.insertAfter 3 4) (by simp [Spec.Legal, Spec.step])
  have h4 := h3.snoc (.unlink 5) (by simp [Spec.Legal, Spec.step, insAfter])
  have h5 := h4.snoc (.append 5) (by simp [Spec.Legal, Spec.step, insAfter])
  have h6 := h5.snoc .popFirst (by simp [Spec.Legal, Spec.step, insAfter])
  simpa [Spec.step, insAfter] using h6

/-- A stale node must not be appended: the link that `append` does not write survives. -/
example : ((run St.empty [.append 1, .append 2, .reset, .append 1]).map fun s => walk s true 5 (s.nodes false)) =
    some [1, 2] := by decide

end Blend2D.List2
