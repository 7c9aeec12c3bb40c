import Verif.ArenaTree.InsertLoop

/-!
# Removal: a red node is pushed down to the node which is taken out
-/

namespace Blend2D.ArenaTree

/-- The node `f` is in the context, strictly below the node `n`. -/
def BelowCtx (n f : Nat) : List Frame → Prop
  | [] => False
  | fr :: fs => (fr.k = f ∧ ∃ b ∈ fs, b.k = n) ∨ BelowCtx n f fs

/-- The frames keep the nodes above, in particular what is below what. -/
def Keeps (fs fs' : List Frame) : Prop :=
  (∀ n, (∃ b ∈ fs, b.k = n) → ∃ b ∈ fs', b.k = n) ∧ ∀ n f, BelowCtx n f fs → BelowCtx n f fs'

theorem Keeps.refl (fs) : Keeps fs fs := ⟨fun _ h => h, fun _ _ h => h⟩

/-- After a round, `q` is red, or the next node is red, or `q` is the root and has no red child. -/
def Ready (fs : List Frame) (q : Tree) (dir : Bool) : Prop :=
  q.isRed = true ∨ (∃ c, q.child dir = some c ∧ c.isRed = true) ∨
    (fs.length = 1 ∧ ∃ o, q.child (!dir) = some o ∧ o.isRed = false)

/-- The facts about a position after the red node was pushed down. -/
structure Pushed (fs : List Frame) (q : Tree) (dir : Bool) (p : Option Nat) (fs2 : List Frame) (q2 : Tree) : Prop where
  head : HeadLast fs2
  parent : ∀ f r, fs2 = f :: r → p = some f.k
  rb : ∃ n, RBCtx fs2 q2.isRed n ∧ RB q2 n
  ready : Ready fs2 q2 dir
  key : q2.key? = q.key?
  next : q2.child dir = q.child dir
  keys : lo fs2 ++ inorder q2 ++ hi fs2 = lo fs ++ inorder q ++ hi fs
  side : dir = true → hi fs2 = hi fs
  keeps : Keeps fs fs2

theorem isRed_eq_false {t : Tree} (h : ¬ t.isRed = true) : t.isRed = false := by simpa using h

theorem isRed_node {l : Tree} {c : Bool} {k : Nat} {r : Tree} : (Tree.node l c k r).isRed = c := rfl

theorem rotate_up {d : Bool} {a c : Tree} {x : Nat} {b : Bool} {ol : Tree} {ok : Nat} {or : Tree}
    (h : (if d then Tree.node (.node ol true ok or) b x c else .node c b x (.node ol true ok or)) = a) :
    singleRotate a d = some (if d then .node ol false ok (.node or true x c) else .node (.node c true x ol) false ok or) := by
  subst h
  cases d <;> simp [singleRotate, Tree.child, Tree.setChild, Tree.paint]

theorem push_rotate {fp : Frame} {fs' : List Frame} {g p : Option Nat} {l r : Tree} {x n : Nat} {dir last : Bool}
    (hh : HeadLast (fp :: fs')) (hp : p = some fp.k) (hl : fp.dir = last)
    (hc : RBCtx (fp :: fs') false n) (hb : RB (.node l false x r) n)
    (h1 : (if dir then r else l).isRed = false) (h2 : (if dir then l else r).isRed = true)
    (h0 : ∀ y ∈ inorder (.node l false x r), y ≠ 0) :
    ∃ p' fs2 q2, pushRed g p last dir (fp :: fs') (.node l false x r) = some (p', fs2, q2) ∧
      Pushed (fp :: fs') (.node l false x r) dir p' fs2 q2 := by
  have hbh : ∃ m, n = m + 1 ∧ BlackHeight l m ∧ BlackHeight r m := by simpa [BlackHeight] using hb.2
  obtain ⟨m, rfl, hbl, hbr⟩ := hbh
  obtain ⟨_, hnl, hnr⟩ := hb.1
  cases dir with
  | true =>
    simp only [if_true] at h1 h2
    cases l with
    | nil => simp [Tree.isRed] at h2
    | node ol oc ok or =>
      simp only [Tree.isRed] at h2
      subst h2
      obtain ⟨k1, k2, k3⟩ := hnl
      obtain ⟨k4, k5⟩ := k1 rfl
      have hbl : BlackHeight ol m ∧ BlackHeight or m := by simpa [BlackHeight] using hbl
      have hrot := rotate_up (d := true) (a := .node (.node ol true ok or) false x r) rfl
      refine ⟨some ok, ⟨true, false, ok, ol⟩ :: fp :: fs', .node or true x r, ?_, ?_⟩
      · simp [pushRed, Tree.child, isRed_node, h1, hp, hl, hrot, down, Tree.key?]
      · refine ⟨headLast_cons.2 ⟨h0 ok (by simp [inorder]), hh⟩, ?_, ⟨m, rbctx_cons.2 ⟨by simp, k2, hbl.1, by simpa using hc⟩,
          rb_red ⟨k3, hbl.2⟩ ⟨hnr, hbr⟩ k5 h1⟩, Or.inl rfl, rfl, rfl, ?_, ?_, ?_⟩
        · rintro f r ⟨⟩; rfl
        · simp [lo, hi, inorder]
        · intro _; simp [hi]
        · exact ⟨fun n ⟨b, h, e⟩ => ⟨b, by simp_all, e⟩, fun n f h => Or.inr h⟩
  | false =>
    simp only [Bool.false_eq_true, if_false] at h1 h2
    cases r with
    | nil => simp [Tree.isRed] at h2
    | node ol oc ok or =>
      simp only [Tree.isRed] at h2
      subst h2
      obtain ⟨k1, k2, k3⟩ := hnr
      obtain ⟨k4, k5⟩ := k1 rfl
      have hbr : BlackHeight ol m ∧ BlackHeight or m := by simpa [BlackHeight] using hbr
      have hrot := rotate_up (d := false) (a := .node l false x (.node ol true ok or)) rfl
      refine ⟨some ok, ⟨false, false, ok, or⟩ :: fp :: fs', .node l true x ol, ?_, ?_⟩
      · simp [pushRed, Tree.child, isRed_node, h1, hp, hl, hrot, down, Tree.key?]
      · refine ⟨headLast_cons.2 ⟨h0 ok (by simp [inorder]), hh⟩, ?_, ⟨m, rbctx_cons.2 ⟨by simp, k3, hbr.2, by simpa using hc⟩,
          rb_red ⟨hnl, hbl⟩ ⟨k2, hbr.1⟩ h1 k4⟩, Or.inl rfl, rfl, rfl, ?_, ?_, ?_⟩
        · rintro f r ⟨⟩; rfl
        · simp [lo, hi, inorder]
        · simp
        · exact ⟨fun n ⟨b, h, e⟩ => ⟨b, by simp_all, e⟩, fun n f h => Or.inr h⟩

theorem rb_kids_black {l x r n} (h : RB (.node l false x r) n) :
    ∃ m, n = m + 1 ∧ RB l m ∧ RB r m := by
  have hbh : ∃ m, n = m + 1 ∧ BlackHeight l m ∧ BlackHeight r m := by simpa [BlackHeight] using h.2
  obtain ⟨m, e, a, b⟩ := hbh
  exact ⟨m, e, ⟨h.1.2.1, a⟩, ⟨h.1.2.2, b⟩⟩

theorem rb_kids_red {l x r n} (h : RB (.node l true x r) n) :
    RB l n ∧ RB r n ∧ l.isRed = false ∧ r.isRed = false := by
  have hbh : BlackHeight l n ∧ BlackHeight r n := by simpa [BlackHeight] using h.2
  exact ⟨⟨h.1.2.1, hbh.1⟩, ⟨h.1.2.2, hbh.2⟩, (h.1.1 rfl).1, (h.1.1 rfl).2⟩

/-- The rotations at the parent, single: `o` is the outer and `i` the inner child of the sibling `s`. -/
theorem push_single {g p : Option Nat} {last dir fc : Bool} {fk sk n x : Nat} {sl sr l r : Tree} {sc : Bool} {fg : Frame}
    {fs' : List Frame}
    (hg : g = some fg.k) (hp : p = some fk)
    (h1 : (if dir then r else l).isRed = false) (h2 : (if dir then l else r).isRed = false)
    (ho : (if last then sl else sr).isRed = true) (hi : (if last then sr else sl).isRed = false) :
    ∃ o', (if last then sl else sr).paint false = some o' ∧
      pushRed g p last dir (⟨last, fc, fk, .node sl sc sk sr⟩ :: fg :: fs') (.node l false x r) =
        some (p, ⟨last, false, fk, if last then sr else sl⟩ :: ⟨last, true, sk, o'⟩ :: fg :: fs', .node l true x r) := by
  subst hg hp
  cases last <;> cases dir <;> simp only [if_true, Bool.false_eq_true, if_false] at h1 h2 ho hi ⊢
  all_goals
    first
      | (cases sl with
          | nil => simp [Tree.isRed] at ho
          | node a c k b =>
            refine ⟨_, rfl, ?_⟩
            simp only [Tree.isRed] at ho
            simp [pushRed, Tree.child, isRed_node, h1, h2, ho, hi, singleRotate, Tree.setChild, Tree.paint, Frame.fill, down,
              Tree.key?])
      | (cases sr with
          | nil => simp [Tree.isRed] at ho
          | node a c k b =>
            refine ⟨_, rfl, ?_⟩
            simp only [Tree.isRed] at ho
            simp [pushRed, Tree.child, isRed_node, h1, h2, ho, hi, singleRotate, Tree.setChild, Tree.paint, Frame.fill, down,
              Tree.key?])

/-- The double rotation at the parent: the inner child of the sibling becomes the top. -/
theorem push_double {g p : Option Nat} {last dir fc : Bool} {fk sk n x ik : Nat} {o il ir l r : Tree} {sc : Bool}
    {fg : Frame} {fs' : List Frame}
    (hg : g = some fg.k) (hp : p = some fk)
    (h1 : (if dir then r else l).isRed = false) (h2 : (if dir then l else r).isRed = false) :
    pushRed g p last dir (⟨last, fc, fk,
        if last then .node o sc sk (.node il true ik ir) else .node (.node il true ik ir) sc sk o⟩ :: fg :: fs')
        (.node l false x r) =
      some (p, ⟨last, false, fk, if last then ir else il⟩ ::
        ⟨last, true, ik, if last then .node o false sk il else .node ir false sk o⟩ :: fg :: fs', .node l true x r) := by
  subst hg hp
  cases last <;> cases dir <;> simp only [if_true, Bool.false_eq_true, if_false] at h1 h2 ⊢ <;>
    simp [pushRed, Tree.child, isRed_node, h1, h2, singleRotate, doubleRotate, Tree.setChild, Tree.paint, Frame.fill, down,
      Tree.key?]

/-- The red node reaches `q`. -/
theorem push_ok {fp : Frame} {fs' : List Frame} {g p : Option Nat} {l r : Tree} {c : Bool} {x n : Nat} {dir last : Bool}
    (hh : HeadLast (fp :: fs')) (hp : p = some fp.k) (hg : ∀ f t, fs' = f :: t → g = some f.k) (hl : fp.dir = last)
    (hc : RBCtx (fp :: fs') c n) (hb : RB (.node l c x r) n) (h0 : ∀ y ∈ lo (fp :: fs') ++ inorder (.node l c x r) ++ hi (fp :: fs'), y ∈ inorder (.node l c x r) ∨ y ∈ inorder fp.sib → y ≠ 0)
    (hr : c = false → fp.red = true ∨ fs' = [] ∨ (fs'.length = 1 ∧ fp.sib.isRed = false)) :
    ∃ p' fs2 q2, pushRed g p last dir (fp :: fs') (.node l c x r) = some (p', fs2, q2) ∧
      Pushed (fp :: fs') (.node l c x r) dir p' fs2 q2 := by
  by_cases h1 : (c || (if dir then r else l).isRed) = true
  · -- nothing to do
    refine ⟨p, fp :: fs', .node l c x r, ?_, hh, ?_, ⟨n, hc, hb⟩, ?_, rfl, rfl, rfl, fun _ => rfl, Keeps.refl _⟩
    · simp only [pushRed, Tree.child, Option.bind_eq_bind, Option.bind_some, isRed_node, h1, if_true]
    · rintro f t ⟨⟩; exact hp
    · cases c with
      | true => exact Or.inl rfl
      | false => exact Or.inr (Or.inl ⟨_, rfl, by simpa using h1⟩)
  · have h1' : (c || (if dir then r else l).isRed) = false := by simpa using h1
    obtain ⟨hcf, h1n⟩ : c = false ∧ (if dir then r else l).isRed = false := by simpa using h1'
    clear h1 h1'
    have h1 := h1n
    clear h1n
    subst hcf
    have hkey0 : ∀ y ∈ inorder (.node l false x r), y ≠ 0 := fun y hy => h0 y (by simp [hy]) (Or.inl hy)
    by_cases h2 : (if dir then l else r).isRed = true
    · exact push_rotate hh hp hl hc hb h1 h2 hkey0
    · have h2 := isRed_eq_false h2
      have h2' : (if (!dir) = true then r else l).isRed = false := by cases dir <;> simpa using h2
      have h12 : (if dir = true then r else l).isRed = false ∧ (if dir = true then l else r).isRed = false := ⟨h1, h2⟩
      have hkids : l.isRed = false ∧ r.isRed = false := by cases dir <;> simp_all
      obtain ⟨m, rfl, bl, br⟩ := rb_kids_black hb
      match fs', hh, hc, hg, hr, h0 with
      | [], hh, _, _, _, _ =>
        obtain ⟨_, hd, hs⟩ := id hh
        refine ⟨p, [fp], .node l false x r, ?_, hh, ?_, ⟨m + 1, trivial, hb⟩, Or.inr (Or.inr ⟨rfl, _, rfl, h2'⟩), rfl, rfl, rfl,
          fun _ => rfl, Keeps.refl _⟩
        · simp only [pushRed, Tree.child, isRed_node, h1, h2', hp, hl, hs, Option.bind_eq_bind, Option.bind_some, Bool.or_self,
            Bool.false_eq_true, if_false, ne_eq, not_true_eq_false, or_self]
        · rintro f t ⟨⟩; exact hp
      | fg :: fs', hh, hc, hg, hr, h0 =>
        obtain ⟨a1, a2, a3, a4⟩ := rbctx_cons.1 hc
        have hsb : fp.sib.isRed = false := by
          rcases hr rfl with h | h | h
          · exact (a1 h).2
          · cases h
          · exact h.2
        -- the context of the parent, whatever its colour
        have hup : RBCtx (fg :: fs') false (m + 1) ∧ RBCtx (fg :: fs') true (m + 1) := by
          rcases hr rfl with h | h | h
          · simp only [h, if_true] at a4
            exact ⟨a4.black, a4⟩
          · cases h
          · have : fs' = [] := by simpa using h.1
            subst this
            exact ⟨trivial, trivial⟩
        obtain ⟨fd, fc, fk, fsib⟩ := fp
        dsimp only at hl hp hsb a2 a3 a1
        subst hl
        have hred : RB (.node l true x r) m := rb_red bl br hkids.1 hkids.2
        have hfk : fk ≠ 0 := (headLast_cons.1 hh).1
        cases fsib with
        | nil => exact absurd a3 (by simp [BlackHeight])
        | node sl sc sk sr =>
          have hsc : sc = false := hsb
          subst hsc
          obtain ⟨m', e, sl1, sr1⟩ := rb_kids_black (⟨a2, a3⟩ : RB (.node sl false sk sr) (m + 1))
          obtain rfl : m = m' := by omega
          have hs0 : ∀ y ∈ inorder (.node sl false sk sr), y ≠ 0 := by
            intro y hy
            refine h0 y ?_ (Or.inr hy)
            have : y ∈ lo (⟨fd, fc, fk, .node sl false sk sr⟩ :: fg :: fs') ∨
                y ∈ hi (⟨fd, fc, fk, .node sl false sk sr⟩ :: fg :: fs') := by
              rw [lo, hi]
              cases fd <;> simp [hy]
            rcases this with h | h <;> simp [h]
          have hsk : sk ≠ 0 := hs0 sk (by simp [inorder])
          by_cases hin : (if fd then sr else sl).isRed = true
          · -- double rotation
            have hshape : ∃ o il ik ir, Tree.node sl false sk sr =
                (if fd then .node o false sk (.node il true ik ir) else .node (.node il true ik ir) false sk o) := by
              cases fd with
              | true =>
                cases sr with
                | nil => simp [Tree.isRed] at hin
                | node a b c d => simp only [if_true, isRed_node] at hin; subst hin; exact ⟨sl, a, c, d, rfl⟩
              | false =>
                cases sl with
                | nil => simp [Tree.isRed] at hin
                | node a b c d =>
                  simp only [Bool.false_eq_true, if_false, isRed_node] at hin; subst hin; exact ⟨sr, a, c, d, rfl⟩
            obtain ⟨o, il, ik, ir, hsh⟩ := hshape
            have hpush := push_double (last := fd) (dir := dir) (fc := fc) (sk := sk) (ik := ik) (o := o) (il := il)
              (ir := ir) (sc := false) (fs' := fs') (x := x) (n := 0) (hg fg fs' rfl) hp h1 h2
            rw [← hsh] at hpush
            have hik : ik ≠ 0 := hs0 ik (by rw [hsh]; cases fd <;> simp [inorder])
            have hsib : RB (if fd then .node o false sk il else .node ir false sk o) (m + 1) ∧
                RB (if fd then ir else il) m := by
              cases fd with
              | true =>
                simp only [if_true, Tree.node.injEq, true_and] at hsh ⊢
                obtain ⟨rfl, rfl⟩ := hsh
                obtain ⟨b1, b2, _, _⟩ := rb_kids_red sr1
                exact ⟨rb_black sl1 b1, b2⟩
              | false =>
                simp only [Bool.false_eq_true, if_false, Tree.node.injEq, true_and] at hsh ⊢
                obtain ⟨rfl, rfl⟩ := hsh
                obtain ⟨b1, b2, _, _⟩ := rb_kids_red sl1
                exact ⟨rb_black b2 sr1, b1⟩
            refine ⟨_, _, _, hpush, headLast_cons.2 ⟨hfk, headLast_cons.2 ⟨hik, hh.tail⟩⟩, ?_, ⟨m, ?_, hred⟩,
              Or.inl rfl, rfl, by cases dir <;> rfl, ?_, ?_, ?_, ?_⟩
            · rintro f t ⟨⟩; exact hp
            · refine rbctx_cons.2 ⟨by simp, hsib.2.1, hsib.2.2, rbctx_cons.2 ⟨fun _ => ⟨rfl, ?_⟩, ?_, ?_, ?_⟩⟩
              · cases fd <;> rfl
              · exact hsib.1.1
              · simpa using hsib.1.2
              · simpa using hup.2
            · simp only [lo, hi]; rw [hsh]
              cases fd <;> simp [inorder]
            · intro _
              simp only [hi]; rw [hsh]
              cases fd <;> simp [inorder]
            · rintro n ⟨b, hb', e⟩
              rcases List.mem_cons.1 hb' with rfl | hb'
              · exact ⟨_, List.mem_cons_self, e⟩
              · exact ⟨b, by simp [hb'], e⟩
            · rintro n f (⟨e, b, hb', e'⟩ | h)
              · exact Or.inl ⟨e, b, by simp [hb'], e'⟩
              · exact Or.inr (Or.inr h)
          · have hin := isRed_eq_false hin
            by_cases hout : (if fd then sl else sr).isRed = true
            · -- single rotation
              obtain ⟨o', ho', hpush⟩ := push_single (n := 0) (dir := dir) (fc := fc) (sk := sk) (sc := false) (x := x) (fs' := fs')
                (hg fg fs' rfl) hp h1 h2 hout hin
              have ho1 : RB (if fd then sl else sr) m ∧ RB (if fd then sr else sl) m := by
                cases fd <;> simp [sl1, sr1]
              obtain ⟨_, q2, q3, q4, _, q6⟩ := paint_calm hout ho' ho1.1.1 ho1.1.2
              refine ⟨_, _, _, hpush, headLast_cons.2 ⟨hfk, headLast_cons.2 ⟨hsk, hh.tail⟩⟩, ?_, ⟨m, ?_, hred⟩,
                Or.inl rfl, rfl, by cases dir <;> rfl, ?_, ?_, ?_, ?_⟩
              · rintro f t ⟨⟩; exact hp
              · refine rbctx_cons.2 ⟨by simp, ho1.2.1, ho1.2.2, rbctx_cons.2 ⟨fun _ => ⟨rfl, q6⟩, q2, ?_, ?_⟩⟩
                · simpa using q3
                · simpa using hup.2
              · simp only [lo, hi]
                cases fd <;> simp at q4 <;> simp [inorder, q4]
              · intro _
                simp only [hi]
                cases fd <;> simp at q4 <;> simp [inorder, q4]
              · rintro n ⟨b, hb', e⟩
                rcases List.mem_cons.1 hb' with rfl | hb'
                · exact ⟨_, List.mem_cons_self, e⟩
                · exact ⟨b, by simp [hb'], e⟩
              · rintro n f (⟨e, b, hb', e'⟩ | h)
                · exact Or.inl ⟨e, b, by simp [hb'], e'⟩
                · exact Or.inr (Or.inr h)
            · -- colour flip
              have hout := isRed_eq_false hout
              have hsk' : sl.isRed = false ∧ sr.isRed = false := by cases fd <;> simp_all
              refine ⟨p, ⟨fd, false, fk, .node sl true sk sr⟩ :: fg :: fs', .node l true x r, ?_,
                headLast_cons.2 ⟨hfk, hh.tail⟩, ?_, ⟨m, ?_, hred⟩, Or.inl rfl, rfl, by cases dir <;> rfl, ?_, ?_, ?_, ?_⟩
              · simp only [pushRed, Tree.child, isRed_node, h1, h2', hp, Option.bind_eq_bind, Option.bind_some, Bool.or_self,
                  Bool.false_eq_true, if_false, ne_eq, not_true_eq_false, or_self, hin, hout, Tree.paint, Bool.not_false,
                  Bool.and_self, if_true]
              · rintro f t ⟨⟩; exact hp
              · have := rb_red (x := sk) sl1 sr1 hsk'.1 hsk'.2
                exact rbctx_cons.2 ⟨by simp, this.1, this.2, by simpa using hup.1⟩
              · simp only [lo, hi]
                cases fd <;> simp [inorder]
              · intro _
                simp only [hi]
                cases fd <;> simp [inorder]
              · rintro n ⟨b, hb', e⟩
                rcases List.mem_cons.1 hb' with rfl | hb'
                · exact ⟨_, List.mem_cons_self, e⟩
                · exact ⟨b, by simp [hb'], e⟩
              · rintro n f (⟨e, b, hb', e'⟩ | h)
                · exact Or.inl ⟨e, b, hb', e'⟩
                · exact Or.inr h

end Blend2D.ArenaTree
