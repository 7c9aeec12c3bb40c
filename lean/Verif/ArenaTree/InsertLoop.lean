import Verif.ArenaTree.Insert

/-!
# The loop of the insertion
-/

namespace Blend2D.ArenaTree

theorem Good.congr {k L fs fs' q q'} (g : Good k L fs q) (hh : HeadLast fs') (hlo : lo fs' = lo fs)
    (hhi : hi fs' = hi fs) (hq : inorder q' = inorder q) : Good k L fs' q' :=
  ⟨hh, by rw [hlo, hhi, hq]; exact g.keys, by rw [hlo]; exact g.below, by rw [hhi]; exact g.above⟩

theorem Good.ne {k L fs l c x r} (hk : k ∉ L) (g : Good k L fs (.node l c x r)) : x ≠ k := by
  intro e
  exact hk (by rw [← g.keys, ← e]; simp [inorder])

/-- The context of a red focus whose parent is red, after the rotations. -/
theorem rotated_ctx {f f1 f2 : Frame} {r n} (h : RBCtx (f :: f1 :: f2 :: r) false n) (hf : f.red = true)
    (h1 : f1.sib.isRed = false) :
    f1.red = false ∧ RB f.sib n ∧ f.sib.isRed = false ∧ RB f1.sib n ∧ RBCtx (f2 :: r) false (n + 1) := by
  obtain ⟨a1, a2, a3, a4⟩ := rbctx_cons.1 h
  rw [hf] at a4
  obtain ⟨b1, b2, b3, b4⟩ := rbctx_cons.1 a4
  have hb : f1.red = false := by
    cases e : f1.red with
    | false => rfl
    | true => exact absurd (b1 e).1 (by simp)
  rw [hb] at b4
  simp only [if_true] at b3
  simp only [Bool.false_eq_true, if_false, if_true] at b4
  exact ⟨hb, ⟨a2, a3⟩, (a1 hf).2, ⟨b2, b3⟩, b4⟩

theorem rb_red {l x r n} (hl : RB l n) (hr : RB r n) (bl : l.isRed = false) (br : r.isRed = false) :
    RB (.node l true x r) n :=
  ⟨⟨fun _ => ⟨bl, br⟩, hl.1, hr.1⟩, by simpa [BlackHeight] using ⟨hl.2, hr.2⟩⟩

theorem rb_black {l x r n} (hl : RB l n) (hr : RB r n) : RB (.node l false x r) (n + 1) :=
  ⟨⟨by simp, hl.1, hr.1⟩, by simpa [BlackHeight] using ⟨hl.2, hr.2⟩⟩

theorem rb_side {d x a b n} (hl : RB a n) (hr : RB b n) (bl : a.isRed = false) (br : b.isRed = false) :
    RB (side d true x a b) n := by
  unfold side
  cases d
  · exact rb_red hl hr bl br
  · exact rb_red hr hl br bl

theorem single_ctx {f f1 f2 : Frame} {r n b} (h : RBCtx (f :: f1 :: f2 :: r) false n) (hf : f.red = true)
    (h1 : f1.sib.isRed = false) :
    RBCtx (⟨f1.dir, false, f.k, side f1.dir true f1.k f.sib f1.sib⟩ :: f2 :: r) b n := by
  obtain ⟨_, p2, p3, p4, p5⟩ := rotated_ctx h hf h1
  have := rb_side (d := f1.dir) (x := f1.k) p2 p4 p3 h1
  exact rbctx_cons.2 ⟨by simp, this.1, this.2, by simpa using p5⟩

theorem single_keys {f f1 f2 : Frame} {r} (hd : f.dir = f1.dir) :
    lo (⟨f1.dir, false, f.k, side f1.dir true f1.k f.sib f1.sib⟩ :: f2 :: r) = lo (f :: f1 :: f2 :: r) ∧
      hi (⟨f1.dir, false, f.k, side f1.dir true f1.k f.sib f1.sib⟩ :: f2 :: r) = hi (f :: f1 :: f2 :: r) := by
  rw [lo.eq_2 f, hi.eq_2 f, lo.eq_2 f1, hi.eq_2 f1, lo.eq_2 ⟨_, _, _, _⟩, hi.eq_2 ⟨_, _, _, _⟩, hd]
  cases f1.dir <;> simp [side, inorder]

/-- The top of a double rotation. -/
def doubleTop (f f1 : Frame) (l : Tree) (x : Nat) (r : Tree) : Tree :=
  if f1.dir then .node (.node f1.sib true f1.k l) false x (.node r true f.k f.sib)
  else .node (.node f.sib true f.k l) false x (.node r true f1.k f1.sib)

theorem double_ctx {f f1 f2 : Frame} {rest n l x r} (h : RBCtx (f :: f1 :: f2 :: rest) false n) (hf : f.red = true)
    (h1 : f1.sib.isRed = false) (hl : RB l n) (hr : RB r n) (bl : l.isRed = false) (br : r.isRed = false) :
    RBCtx (f2 :: rest) false (n + 1) ∧ RB (doubleTop f f1 l x r) (n + 1) ∧ (doubleTop f f1 l x r).isRed = false := by
  obtain ⟨_, p2, p3, p4, p5⟩ := rotated_ctx h hf h1
  refine ⟨p5, ?_, ?_⟩
  · unfold doubleTop
    cases f1.dir
    · exact rb_black (rb_red p2 hl p3 bl) (rb_red hr p4 br h1)
    · exact rb_black (rb_red p4 hl h1 bl) (rb_red hr p2 br p3)
  · unfold doubleTop; cases f1.dir <;> rfl

theorem double_keys {f f1 f2 : Frame} {rest l x r c} (hd : f.dir ≠ f1.dir) :
    lo (f2 :: rest) ++ inorder (doubleTop f f1 l x r) ++ hi (f2 :: rest) =
      lo (f :: f1 :: f2 :: rest) ++ inorder (.node l c x r) ++ hi (f :: f1 :: f2 :: rest) := by
  rw [lo.eq_2 f, hi.eq_2 f, lo.eq_2 f1, hi.eq_2 f1]
  unfold doubleTop
  revert hd
  cases f.dir <;> cases f1.dir <;> simp [inorder]

theorem loop_ok {k : Nat} {L : List Nat} (hL : L.Pairwise (· < ·)) (hk : k ∉ L) :
    ∀ (fuel : Nat) (v : Vars) (n m : Nat) (fs : List Frame) (q : Tree), Good k L fs q → RBCtx fs q.isRed n → RB q n →
      Mode k v m fs q → m ≤ fuel → ∃ t, insertLoop k fuel v fs q = some t ∧ Done k L t := by
  intro fuel
  induction fuel with
  | zero => intro v n m fs q _ _ _ hm hf; exfalso; cases hm <;> omega
  | succ fuel ih =>
    intro v n m fs q g hc hb hm hf
    cases hm with
    | @calm f f1 fs q hp hd hq =>
      match q, hq with
      | .node l c x r, ⟨q1, q2, q3⟩ =>
        subst q1
        have hx0 := mem_ne_zero g hL (show x ∈ inorder (.node l false x r) by simp [inorder])
        have h1 := flip_calm (v := v) (fs := f :: f1 :: fs) (c := false) (g.ne hk) (l := l) (r := r) (by simp [q2])
        rw [loop_next h1 (fix_none g.head hp (Or.inl rfl)) rfl]
        obtain ⟨n', c1, c2⟩ := rb_descend g.head hc hb (decide (x < k))
        refine ih _ n' _ _ _ (g.descend hL hk hx0) c1 c2 (Mode.normal ?_ (fun _ => rfl) ?_ ?_ ?_ ?_ ?_) ?_
        · simp [ptr, hx0]
        · rintro a b ⟨⟩; exact hp
        · simp
        · simp
        · intro hr; exfalso; revert hr; split <;> simp [q2, q3]
        · simp
        · simp only [Tree.size] at hf; split <;> omega
    | @step f f1 fs l x r hp hd hfr hcal =>
      have hx0 := mem_ne_zero g hL (show x ∈ inorder (.node l true x r) by simp [inorder])
      have hkids := hb.1.1 rfl
      have h1 := flip_calm (v := v) (fs := f :: f1 :: fs) (c := true) (g.ne hk) (l := l) (r := r) (by simp [hkids])
      rw [loop_next h1 (fix_none g.head hp (Or.inr hfr)) rfl]
      obtain ⟨n', c1, c2⟩ := rb_descend g.head hc hb (decide (x < k))
      refine ih _ n' _ _ _ (g.descend hL hk hx0) c1 c2 (Mode.calm ?_ rfl ?_) ?_
      · simp [ptr, hx0]
      · simpa using hcal
      · simp only [decide_eq_true_eq]; omega
    | @normal f fs q hp hd hg hfs ht hsib hred =>
      cases q with
      | nil =>
        match fs, hg, hfs, ht, hred, g, hc with
        | [], _, hfs, _, _, _, _ => exact absurd rfl (hfs rfl).2.1
        | f1 :: r, hg, hfs, ht, hred, g, hc =>
          have hp' : v.p = some f.k := by rw [hp, ptr_ne g.head]
          have h1 : insertFlip k v (f :: f1 :: r) .nil = some (.node .nil true k .nil, true) := by
            simp [insertFlip, hp', hd (by simp)]
          have hn : n = 0 := hb.2
          subst hn
          have hnew : RB (.node .nil true k .nil) 0 := ⟨by simp [NoRedRed, Tree.isRed], by simp [BlackHeight]⟩
          by_cases hfr : f.red = false
          · refine ⟨_, loop_done h1 (fix_none g.head hp (Or.inr hfr)), done_of g g.head (n := 0) ?_ hnew (by simp [inorder])⟩
            obtain ⟨a1, a2, a3, a4⟩ := rbctx_cons.1 hc
            exact rbctx_cons.2 ⟨by simp [hfr], a2, a3, a4⟩
          · have hfr : f.red = true := by simpa using hfr
            obtain ⟨f1', f2, r', e, t1, t2, t3⟩ := hred hfr
            cases e
            have hg' : v.g = some f1.k := by rw [hg _ _ rfl, ptr_ne g.head.tail]
            by_cases hdir : f.dir = f1.dir
            · refine ⟨_, loop_done h1 (fix_single hp' hg' t1 t2 hfr rfl hdir), ?_⟩
              have hk' := single_keys (f2 := f2) (r := r') hdir
              refine done_of g (headLast_cons.2 ⟨(headLast_cons.1 g.head).1, g.head.tail.tail⟩) (n := 0)
                (single_ctx hc hfr t3) hnew ?_
              rw [hk'.1, hk'.2]; simp [inorder]
            · refine ⟨_, loop_done h1 (fix_double hp' hg' t1 t2 hfr rfl hdir), ?_⟩
              have hc' : RBCtx (f :: f1 :: f2 :: r') false 0 := hc
              obtain ⟨d1, d2, d3⟩ := double_ctx (x := k) hc' hfr t3 hb hb rfl rfl
              rw [← doubleTop]
              refine done_of g g.head.tail.tail (n := 1) (by rw [d3]; exact d1) d2 ?_
              rw [double_keys (c := true) hdir]
              simp [inorder]
      | node l c x r =>
        have hx0 := mem_ne_zero g hL (show x ∈ inorder (.node l c x r) by simp [inorder])
        have hsz : 2 * (if decide (x < k) = true then r else l).size + 2 ≤ fuel := by
          simp only [Tree.size] at hf; split <;> omega
        by_cases hflip : l.isRed = true ∧ r.isRed = true
        · -- colour flip
          have hcb : c = false := by
            cases c with
            | false => rfl
            | true => exact absurd (hb.1.1 rfl).1 (by simp [hflip.1])
          subst hcb
          obtain ⟨l', r', e1, e2, e3⟩ := flip_red (k := k) (v := v) (fs := f :: fs) (c := false) (g.ne hk) hflip.1 hflip.2
          have hbh : ∃ m, n = m + 1 ∧ BlackHeight l m ∧ BlackHeight r m := by simpa [BlackHeight] using hb.2
          obtain ⟨m, rfl, hl, hr⟩ := hbh
          obtain ⟨l1, l2, l3, l4, l5, l6⟩ := paint_calm hflip.1 e1 hb.1.2.1 hl
          obtain ⟨r1, r2, r3, r4, r5, r6⟩ := paint_calm hflip.2 e2 hb.1.2.2 hr
          have hrb : RB (.node l' true x r') (m + 1) := rb_red ⟨l2, l3⟩ ⟨r2, r3⟩ l6 r6
          have hin : inorder (.node l' true x r') = inorder (.node l false x r) := by simp [inorder, l4, r4]
          have hcalm : ∀ d : Bool, Calm (if d then r' else l') := by intro d; cases d <;> simp [l1, r1]
          have hsz' : 2 * (if decide (x < k) = true then r' else l').size + 2 ≤ fuel := by
            split <;> simp_all
          have g' : Good k L (f :: fs) (.node l' true x r') := g.congr g.head rfl rfl hin
          by_cases hfr : f.red = false
          · rw [loop_next e3 (fix_none g.head hp (Or.inr hfr)) rfl]
            have hc' : RBCtx (f :: fs) true (m + 1) := by
              match fs, hc with
              | [], _ => trivial
              | f1 :: fs, hc =>
                obtain ⟨a1, a2, a3, a4⟩ := rbctx_cons.1 hc
                exact rbctx_cons.2 ⟨by simp [hfr], a2, a3, a4⟩
            obtain ⟨n', c1, c2⟩ := rb_descend g.head hc' hrb (decide (x < k))
            exact ih _ n' _ _ _ (g'.descend hL hk hx0) c1 c2
              (Mode.calm (by simp [ptr, hx0]) rfl (hcalm _)) (by omega)
          · have hfr : f.red = true := by simpa using hfr
            obtain ⟨f1, f2, r0, e, t1, t2, t3⟩ := hred hfr
            subst e
            have hp' : v.p = some f.k := by rw [hp, ptr_ne g.head]
            have hg' : v.g = some f1.k := by rw [hg _ _ rfl, ptr_ne g.head.tail]
            have hc' : RBCtx (f :: f1 :: f2 :: r0) false (m + 1) := hc
            by_cases hdir : f.dir = f1.dir
            · rw [loop_next e3 (fix_single hp' hg' t1 t2 hfr rfl hdir) rfl]
              have hk' := single_keys (f2 := f2) (r := r0) hdir
              have hh : HeadLast (⟨f1.dir, false, f.k, side f1.dir true f1.k f.sib f1.sib⟩ :: f2 :: r0) :=
                headLast_cons.2 ⟨(headLast_cons.1 g.head).1, g.head.tail.tail⟩
              have g2 := g'.congr hh hk'.1 hk'.2 rfl
              obtain ⟨n', c1, c2⟩ := rb_descend hh (single_ctx hc' hfr t3) hrb (decide (x < k))
              exact ih _ n' _ _ _ (g2.descend hL hk hx0) c1 c2
                (Mode.calm (by simp [ptr, hx0]) rfl (hcalm _)) (by omega)
            · have hfix := fix_double (l := l') (x := x) (r := r') (rest := r0) hp' hg' t1 t2 hfr rfl hdir
              rw [← doubleTop] at hfix
              obtain ⟨d1, d2, d3⟩ := double_ctx (x := x) hc' hfr t3 ⟨l2, l3⟩ ⟨r2, r3⟩ l6 r6
              have hgt : Good k L (f2 :: r0) (doubleTop f f1 l' x r') := by
                refine ⟨g.head.tail.tail, ?_, ?_, ?_⟩
                · rw [double_keys (c := true) hdir]; exact g'.keys
                · intro y hy
                  refine g.below y ?_
                  rw [lo, lo.eq_2 f1]
                  split <;> split <;> simp [hy]
                · intro y hy
                  refine g.above y ?_
                  rw [hi, hi.eq_2 f1]
                  split <;> split <;> simp [hy]
              have hfk : f1.dir = true → k < f.k := by
                intro e
                refine g.above f.k ?_
                have : f.dir = false := by revert hdir; rw [e]; cases f.dir <;> simp
                simp [hi, this]
              have hfk' : f1.dir = false → f.k < k := by
                intro e
                refine g.below f.k ?_
                have : f.dir = true := by revert hdir; rw [e]; cases f.dir <;> simp
                simp [lo, this]
              have h1k : f1.dir = true → f1.k < k := by
                intro e
                refine g.below f1.k ?_
                have : f.dir = false := by revert hdir; rw [e]; cases f.dir <;> simp
                simp [lo, this, e]
              have h1k' : f1.dir = false → k < f1.k := by
                intro e
                refine g.above f1.k ?_
                have : f.dir = true := by revert hdir; rw [e]; cases f.dir <;> simp
                simp [hi, this, e]
              cases hd1 : f1.dir with
              | true =>
                have := hfk hd1
                have := h1k hd1
                unfold doubleTop at hfix hgt d2 d3
                simp only [hd1, if_true] at hfix hgt d2 d3
                rw [loop_next e3 hfix rfl]
                obtain ⟨n', c1, c2⟩ := rb_descend g.head.tail.tail d1 d2 (decide (x < k))
                refine ih _ n' (2 * (if decide (x < k) = true then r' else l').size + 2) _ _
                  (hgt.descend hL hk hx0) c1 c2 ?_ hsz'
                by_cases hxk : x < k
                · simp only [hxk, decide_true, if_true]
                  have hh : ¬ f.k < k := by omega
                  have := Mode.step (k := k) (v := ⟨v.p, some x, v.g.getD v.t, true, v.dir⟩)
                    (f := ⟨true, false, x, .node f1.sib true f1.k l'⟩) (f1 := f2) (fs := r0) (l := r') (x := f.k)
                    (r := f.sib) (by simp [ptr, hx0]) rfl rfl (by rw [if_neg hh]; exact r1)
                  rwa [if_neg hh] at this
                · simp only [hxk, decide_false, Bool.false_eq_true, if_false]
                  have hh : f1.k < k := by omega
                  have := Mode.step (k := k) (v := ⟨v.p, some x, v.g.getD v.t, false, v.dir⟩)
                    (f := ⟨false, false, x, .node r' true f.k f.sib⟩) (f1 := f2) (fs := r0) (l := f1.sib) (x := f1.k)
                    (r := l') (by simp [ptr, hx0]) rfl rfl (by rw [if_pos hh]; exact l1)
                  rwa [if_pos hh] at this
              | false =>
                have := hfk' hd1
                have := h1k' hd1
                unfold doubleTop at hfix hgt d2 d3
                simp only [hd1, Bool.false_eq_true, if_false] at hfix hgt d2 d3
                rw [loop_next e3 hfix rfl]
                obtain ⟨n', c1, c2⟩ := rb_descend g.head.tail.tail d1 d2 (decide (x < k))
                refine ih _ n' (2 * (if decide (x < k) = true then r' else l').size + 2) _ _
                  (hgt.descend hL hk hx0) c1 c2 ?_ hsz'
                by_cases hxk : x < k
                · simp only [hxk, decide_true, if_true]
                  have hh : ¬ f1.k < k := by omega
                  have := Mode.step (k := k) (v := ⟨v.p, some x, v.g.getD v.t, true, v.dir⟩)
                    (f := ⟨true, false, x, .node f.sib true f.k l'⟩) (f1 := f2) (fs := r0) (l := r') (x := f1.k)
                    (r := f1.sib) (by simp [ptr, hx0]) rfl rfl (by rw [if_neg hh]; exact r1)
                  rwa [if_neg hh] at this
                · simp only [hxk, decide_false, Bool.false_eq_true, if_false]
                  have hh : f.k < k := by omega
                  have := Mode.step (k := k) (v := ⟨v.p, some x, v.g.getD v.t, false, v.dir⟩)
                    (f := ⟨false, false, x, .node r' true f1.k f1.sib⟩) (f1 := f2) (fs := r0) (l := f.sib) (x := f.k)
                    (r := l') (by simp [ptr, hx0]) rfl rfl (by rw [if_pos hh]; exact l1)
                  rwa [if_pos hh] at this
        · -- nothing happens at this node
          have hor : (Tree.node l c x r).isRed = false ∨ f.red = false := by
            match fs, hc, hfs with
            | [], _, hfs => exact Or.inl (hfs rfl).1
            | f1 :: fs, hc, _ =>
              cases hfr : f.red with
              | false => exact Or.inr rfl
              | true => exact Or.inl ((rbctx_cons.1 hc).1 hfr).1
          rw [loop_next (flip_calm (g.ne hk) hflip) (fix_none g.head hp hor) rfl]
          obtain ⟨n', c1, c2⟩ := rb_descend g.head hc hb (decide (x < k))
          refine ih _ n' _ _ _ (g.descend hL hk hx0) c1 c2 (Mode.normal ?_ (fun _ => rfl) ?_ ?_ ?_ ?_ ?_) (by omega)
          · simp [ptr, hx0]
          · rintro a b ⟨⟩; exact hp
          · simp
          · rintro a ⟨⟩
            have := hfs rfl
            simp [this.2.2.1, this.2.2.2]
          · intro hr
            cases hxk : decide (x < k) <;> simp only [hxk, if_true, Bool.false_eq_true, if_false] at hr ⊢ <;>
              revert hflip <;> simp [hr]
          · intro hcr
            dsimp only at hcr
            subst hcr
            match fs, hfs, hg, ht, g with
            | [], hfs, _, _, _ => exact absurd (hfs rfl).1 (by simp [Tree.isRed])
            | f1 :: r1, _, hg, ht, g =>
              refine ⟨f, f1, r1, rfl, ?_, hd (by simp), hsib rfl⟩
              rw [hg _ _ rfl]
              unfold ptr
              by_cases h0 : f1.k = 0
              · have : r1 = [] := by
                  match r1, g.head.tail with
                  | [], _ => rfl
                  | f2 :: r2, h => exact absurd h0 (headLast_cons.1 h).1
                subst this
                simp [h0, ht f1 rfl]
              · simp [h0]

end Blend2D.ArenaTree
