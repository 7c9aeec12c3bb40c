import Verif.Async.Model
import Verif.Draw.Closed

/-!
# The edges of a band, when bands are skipped

As in `Verif/Draw/Edges.lean`; lines that end above the band are skipped, and lines that start above it are advanced.
-/
namespace Blend2D.Async
open Draw Draw.Spec Raster Raster.Spec

/-- Drawing the rest of a line, and then what follows it. -/
theorem line_of {W : Box} {k k0 e : Int} {p q : Pt} {l : List Pt} {s : St} {F : Option Act × List Ev} (neg : Bool) (hy : p.y < q.y)
    (hg : ¬ Glitch p q) (hr : Raster.Ready p q k0 s) (hk : k ≤ k0) (hk0 : k0 ≤ e) (hz : ∀ y x, k ≤ y → y < k0 → cover p q y x = 0)
    (hd : Down (q :: l)) (hw : InW W (p :: q :: l))
    (hf : q.y ≤ 256 * (e + 1) → Does W k e (fun y x => sgn neg * chain (q :: l) y x) F) :
    Does W k e (fun y x => sgn neg * (cover p q y x + chain (q :: l) y x)) (line e neg s (q :: l) F) := by
  have o := rasterize_spec (band := some e) neg hy hg hr (fun b hb => by cases hb; exact hk0)
  have hp := hw p (by simp)
  have hq := hw q (by simp)
  have hlast : lastOf s (some e) = lastRow q (some e) := by
    show min s.ey1 e = min ((q.y - 1) / 256) e
    rw [hr.ey1]
  have hrows := rasterize_rows neg (some e) s (by
    rw [hlast, hr.ey0]
    show k0 ≤ min ((q.y - 1) / 256) e
    have := hr.hi
    omega)
  rw [hlast, hr.ey0] at hrows
  have hlog : LogIn W (rasterize neg (some e) s).2.2 := LogIn.of o.bounded hp.1 hq.1
  have eL : lastRow q (some e) = min ((q.y - 1) / 256) e := rfl
  rw [eL] at o hrows
  have hi := hr.hi
  generalize hres : rasterize neg (some e) s = r at o hrows hlog
  unfold line
  simp only [hres]
  have e1 := o.ret
  by_cases c : (q.y - 1) / 256 ≤ e
  · have hm : min ((q.y - 1) / 256) e = (q.y - 1) / 256 := by omega
    rw [hm] at o hrows e1
    rw [if_pos (by simpa using e1)]
    have F' := hf (by omega)
    refine ⟨?_, ?_, ?_, ?_⟩
    · intro y x
      show acc y x (r.2.2 ++ F.2) = _
      rw [Draw.acc_append, o.draws y x, F'.draws y x]
      by_cases d : k ≤ y ∧ y ≤ e
      · rw [if_pos d, if_pos d]
        by_cases f : k0 ≤ y ∧ y < (q.y - 1) / 256 + 1
        · rw [if_pos f, Int.mul_add]
        · rw [if_neg f]
          by_cases g : y < k0
          · rw [hz y x d.1 g]; simp
          · rw [cover_outside x (Or.inr (by omega))]; simp
      · rw [if_neg d, if_neg d, if_neg (by omega)]
        rfl
    · exact (hrows.mono hk (by have := hq.2; omega)).append F'.rows
    · exact hlog.append F'.log
    · exact F'.next.congr fun y x hy' => by
        rw [cover_outside x (Or.inr (by omega)), Int.zero_add]
  · have hm : min ((q.y - 1) / 256) e = e := by omega
    rw [hm] at o hrows e1
    have e2 : r.1 = false := by
      rw [e1]
      simp
      omega
    rw [if_neg (by simp [e2])]
    refine ⟨?_, hrows.mono hk (by have := hq.2; omega), hlog, p, q, l, rfl, hy, ?_, hg, hd, hw, fun y x _ => rfl⟩
    · intro y x
      show acc y x r.2.2 = _
      rw [o.draws y x]
      by_cases d : k ≤ y ∧ y ≤ e
      · rw [if_pos d, chain_above hd x (by omega), Int.add_zero]
        by_cases f : k0 ≤ y ∧ y < e + 1
        · rw [if_pos f]
        · rw [if_neg f, hz y x d.1 (by omega)]; simp
      · rw [if_neg d, if_neg (by omega)]
    · exact o.next (by omega)

/-- A line that ends above the band covers nothing in it. -/
theorem skip_cover {p q : Pt} {t : Int} (h : q.y ≤ 256 * t) {y : Int} (x : Int) (hy : t ≤ y) : cover p q y x = 0 :=
  cover_outside x (Or.inr (by omega))

variable {W : Box} {t e : Int}

/-- A prepared line that ends in the band or below it, and starts in it or above it. -/
theorem reach {p q : Pt} {l : List Pt} {s : St} {F : Option Act × List Ev} (neg : Bool) (hte : t ≤ e) (hy : p.y < q.y) (hg : ¬ Glitch p q)
    (hr : Raster.Ready p q (p.y / 256) s) (hq : 256 * t < q.y) (hpe : p.y / 256 ≤ e) (hd : Down (q :: l)) (hw : InW W (p :: q :: l))
    (hf : q.y ≤ 256 * (e + 1) → Does W t e (fun y x => sgn neg * chain (q :: l) y x) F) :
    Does W t e (fun y x => sgn neg * (cover p q y x + chain (q :: l) y x))
      (if s.ey0 < t then line e neg (advanceToY s t) (q :: l) F else line e neg s (q :: l) F) := by
  by_cases c : s.ey0 < t
  · rw [if_pos c]
    rw [hr.ey0] at c
    have ha := advance_spec hr (t := t) (by omega)
    rw [show max (p.y / 256) t = t by omega] at ha
    exact line_of neg hy hg ha (Int.le_refl _) hte (fun y x h1 h2 => by omega) hd hw hf
  · rw [if_neg c]
    rw [hr.ey0] at c
    exact line_of neg hy hg hr (by omega) hpe (fun y x _ hlt => cover_outside x (Or.inl hlt)) hd hw hf

theorem follow_does (neg : Bool) (hte : t ≤ e) : ∀ (l : List Pt) (p : Pt), Down (p :: l) → InW W (p :: l) →
    p.y ≤ 256 * (e + 1) → Does W t e (fun y x => sgn neg * chain (p :: l) y x) (follow t e neg (p :: l)) := by
  intro l
  induction l with
  | nil => intro p _ _ _; exact nothing W t e neg p
  | cons q l ih =>
    intro p hd hw hp
    obtain ⟨h1, h2, h3⟩ := hd
    unfold follow
    by_cases cq : q.y ≤ 256 * t
    · rw [if_pos cq]
      exact (ih q h3 hw.tail (by omega)).congr (fun y x hy => by rw [chain, skip_cover cq x hy, Int.zero_add]) (by omega)
    rw [if_neg cq]
    cases hs : prepare p q with
    | none =>
      have hy := (C49_prepare h1).1 hs
      have e0 : ∀ y x, chain (p :: q :: l) y x = chain (q :: l) y x := fun y x => by
        rw [chain, cover_horz hy, Int.zero_add]
      simp only [e0]
      exact ih q h3 hw.tail (by omega)
    | some s =>
      have hy : p.y < q.y := by
        by_contra hc
        have := (C49_prepare h1).2 (by omega)
        rw [this] at hs
        simp at hs
      have hr := prepare_ready hy hs
      simp only []
      by_cases c : s.ey0 > e
      · rw [if_pos c]
        rw [hr.ey0] at c
        have e1 : p.y / 256 = e + 1 := by omega
        rw [e1] at hr
        exact keep_of neg hy h2 hr e1 h3 hw
      · rw [if_neg c]
        rw [hr.ey0] at c
        exact reach neg hte hy h2 hr (by omega) (by omega) h3 hw (fun hq => ih q h3 hw.tail hq)

/-- An active edge draws its part of the band. -/
theorem resume_does {k : Int} {a : Act} {f : Int → Int → Int} (h : Owes W k a f) (hk : k ≤ t) (hte : t ≤ e) :
    Does W t e f (resume t e a) := by
  obtain ⟨neg, s, rest⟩ := a
  obtain ⟨p, q, l, h1, h2, h3, h4, h5, h6, h7⟩ := h
  simp only at h1
  subst h1
  unfold resume
  simp only []
  by_cases c : s.ey1 < t
  · rw [if_pos c]
    simp only at h3
    rw [h3.ey1] at c
    exact (follow_does neg hte l q h5 h6.tail (by omega)).congr
      (fun y x hy => by rw [h7 y x (by omega), cover_outside x (Or.inr (by omega)), Int.zero_add]) (by omega)
  · rw [if_neg c]
    simp only at h3
    rw [h3.ey1] at c
    have ha := advance_spec h3 (t := t) (by omega)
    rw [show max k t = t by omega] at ha
    refine Does.congr (line_of neg h2 h4 ha (Int.le_refl _) hte (fun y x a b => by omega) h5 h6 fun hq =>
      follow_does neg hte l q h5 h6.tail hq) (fun y x hy => h7 y x (by omega)) (by omega)

/-- An edge vector that starts in the band or above it draws its part of the band. -/
theorem enter_does (neg : Bool) (hte : t ≤ e) : ∀ (l : List Pt) (p : Pt), Down (p :: l) → InW W (p :: l) →
    p.y ≤ 256 * (e + 1) → Does W t e (fun y x => sgn neg * chain (p :: l) y x) (enter t e neg (p :: l)) := by
  intro l
  induction l with
  | nil => intro p _ _ _; exact nothing W t e neg p
  | cons q l ih =>
    intro p hd hw hp
    obtain ⟨h1, h2, h3⟩ := hd
    unfold enter
    by_cases cq : q.y ≤ 256 * t
    · rw [if_pos cq]
      exact (ih q h3 hw.tail (by omega)).congr (fun y x hy => by rw [chain, skip_cover cq x hy, Int.zero_add]) (by omega)
    rw [if_neg cq]
    cases hs : prepare p q with
    | none =>
      have hy := (C49_prepare h1).1 hs
      have e0 : ∀ y x, chain (p :: q :: l) y x = chain (q :: l) y x := fun y x => by
        rw [chain, cover_horz hy, Int.zero_add]
      simp only [e0]
      exact ih q h3 hw.tail (by omega)
    | some s0 =>
      have hy : p.y < q.y := by
        by_contra hc
        have := (C49_prepare h1).2 (by omega)
        rw [this] at hs
        simp at hs
      have hr := advance_spec (prepare_ready hy hs) (t := t) (by omega)
      simp only []
      generalize advanceToY s0 t = s at hr
      have hz : ∀ y x, t ≤ y → y < max (p.y / 256) t → cover p q y x = 0 := fun y x a b => cover_outside x (Or.inl (by omega))
      by_cases c1 : s.ey1 ≤ e
      · rw [if_pos c1]
        rw [hr.ey1] at c1
        have F := ih q h3 hw.tail (by omega)
        have o := rasterize_spec (band := none) neg hy h2 hr (fun b hb => by cases hb)
        have hrows := rasterize_rows neg none s (by
          show s.ey0 ≤ s.ey1
          rw [hr.ey0, hr.ey1]; omega)
        have eL : lastOf s none = (q.y - 1) / 256 := hr.ey1
        rw [eL, hr.ey0] at hrows
        have eL' : lastRow q none = (q.y - 1) / 256 := rfl
        rw [eL'] at o
        refine ⟨?_, (hrows.mono (by omega) (by have := (hw q (by simp)).2; omega)).append F.rows,
          (LogIn.of o.bounded (hw p (by simp)).1 (hw q (by simp)).1).append F.log, ?_⟩
        · intro y x
          rw [Draw.acc_append, o.draws y x, F.draws y x, chain]
          by_cases d : t ≤ y ∧ y ≤ e
          · rw [if_pos d, if_pos d]
            by_cases f : max (p.y / 256) t ≤ y ∧ y < (q.y - 1) / 256 + 1
            · rw [if_pos f, Int.mul_add]
            · rw [if_neg f, cover_outside x (by omega)]; simp
          · rw [if_neg d, if_neg d, if_neg (by omega)]
            rfl
        · exact F.next.congr fun y x hy' => by
            rw [chain, cover_outside x (Or.inr (by omega)), Int.zero_add]
      · rw [if_neg c1]
        by_cases c : s.ey0 > e
        · rw [if_pos c]
          rw [hr.ey0] at c
          have e1 : p.y / 256 = e + 1 := by omega
          rw [show max (p.y / 256) t = e + 1 by omega] at hr
          exact keep_of neg hy h2 hr e1 h3 hw
        · rw [if_neg c]
          rw [hr.ey0] at c
          rw [if_neg (by rw [hr.ey0]; omega)]
          exact line_of neg hy h2 hr (by omega) (by omega) hz h3 hw (fun hq => follow_does neg hte l q h3 hw.tail hq)

/-! ## All edges of a band -/

theorem last_down : ∀ {l : List Pt} {p : Pt}, Down (p :: l) → ∀ {z : Pt}, (p :: l).getLast? = some z → p.y ≤ z.y := by
  intro l
  induction l with
  | nil => intro p _ z hz; simp at hz; rw [hz]
  | cons q l ih =>
    intro p h z hz
    obtain ⟨h1, _, h3⟩ := h
    rw [List.getLast?_cons_cons] at hz
    have := ih h3 hz
    omega

/-- A chain that ends above the band covers nothing in it. -/
theorem chain_ends {y : Int} (x : Int) (hy : t ≤ y) : ∀ {l : List Pt} {p : Pt}, Down (p :: l) → ∀ {z : Pt},
    (p :: l).getLast? = some z → z.y ≤ 256 * t → chain (p :: l) y x = 0 := by
  intro l
  induction l with
  | nil => intro p _ z _ _; rfl
  | cons q l ih =>
    intro p h z hz hzy
    obtain ⟨h1, _, h3⟩ := h
    rw [List.getLast?_cons_cons] at hz
    have := last_down h3 hz
    rw [chain, skip_cover (t := t) (by omega) x hy, ih h3 hz hzy, Int.zero_add]

/-- What is required of an edge vector. -/
structure Fine (W : Box) (v : Vec) : Prop where
  down : Down v.pts
  box : InW W v.pts
  some : v.pts ≠ []

/-- Edge vectors in the order of the bands (of `H` units) they start in. -/
def Sorted (H : Int) (vs : List Vec) : Prop := vs.Pairwise fun v w => firstY v / H ≤ firstY w / H

theorem news_does {H : Int} (hH : 0 < H) {id : Int} (hid : 256 * (e + 1) = (id + 1) * H) (hte : t ≤ e) : ∀ (vs : List Vec),
    (∀ v ∈ vs, Fine W v) → Sorted H vs →
    (∃ pre, vs = pre ++ (news t e vs).1) ∧ (∀ v ∈ (news t e vs).1, 256 * (e + 1) ≤ firstY v) ∧
    ∃ fs, List.Forall₂ (fun r f => Does W t e f r) (news t e vs).2 fs ∧
      ∀ y x, t ≤ y → shape vs y x = sumF fs y x + shape (news t e vs).1 y x := by
  intro vs
  induction vs with
  | nil => intro _ _; exact ⟨⟨[], rfl⟩, fun v h => by simp [news] at h, [], .nil, fun y x _ => by simp [news, sumF]⟩
  | cons v vs ih =>
    intro hf hs
    obtain ⟨hs1, hs2⟩ := List.pairwise_cons.1 hs
    obtain ⟨⟨pre, i1⟩, i2, fs, i3, i4⟩ := ih (fun w hw => hf w (List.mem_cons_of_mem _ hw)) hs2
    obtain ⟨f1, f2, f3⟩ := hf v (by simp)
    unfold news
    by_cases c : firstY v ≥ 256 * (e + 1)
    · rw [if_pos c]
      refine ⟨⟨[], rfl⟩, ?_, [], .nil, fun y x _ => by simp [sumF]⟩
      intro w hw
      rcases List.mem_cons.1 hw with rfl | hw
      · exact c
      · have h1 := hs1 w hw
        rw [hid] at c ⊢
        have h2 : id + 1 ≤ firstY v / H := (Int.le_ediv_iff_mul_le hH).2 c
        exact (Int.le_ediv_iff_mul_le hH).1 (Int.le_trans h2 h1)
    · rw [if_neg c]
      obtain ⟨p, l, hv⟩ : ∃ p l, v.pts = p :: l := by
        cases h : v.pts with
        | nil => exact absurd h f3
        | cons p l => exact ⟨p, l, rfl⟩
      have hfirst : firstY v = p.y := by unfold firstY; rw [hv]
      simp only []
      by_cases d : lastY v ≤ 256 * t
      · rw [if_pos d]
        refine ⟨⟨v :: pre, by rw [List.cons_append, ← i1]⟩, i2, fs, i3, fun y x hy => ?_⟩
        have hc : chain v.pts y x = 0 := by
          cases hz : v.pts.getLast? with
          | none => rw [List.getLast?_eq_none_iff] at hz; exact absurd hz f3
          | some z =>
            have : lastY v = z.y := by unfold lastY; rw [hz]
            rw [hv] at hz f1 ⊢
            exact chain_ends x hy f1 hz (by omega)
        rw [shape, hc, i4 y x hy]
        simp
      · rw [if_neg d]
        have := enter_does (W := W) (t := t) (e := e) v.neg hte l p (hv ▸ f1) (hv ▸ f2) (by omega)
        rw [← hv] at this
        refine ⟨⟨v :: pre, by rw [List.cons_append, ← i1]⟩, i2, _, .cons this i3, fun y x hy => ?_⟩
        rw [shape, i4 y x hy, sumF, Int.add_assoc]

/-- What is left of a shape from scanline `k` on. -/
structure SlotOk (W : Box) (es : List Vec) (k : Int) (s : Slot) : Prop where
  suffix : ∃ pre, es = pre ++ s.edges
  owes : ∃ fs, List.Forall₂ (Owes W k) s.acts fs ∧ ∀ y x, k ≤ y → shape es y x = sumF fs y x + shape s.edges y x

theorem slot_start (W : Box) (es : List Vec) (k : Int) : SlotOk W es k ⟨es, []⟩ :=
  ⟨⟨[], rfl⟩, [], .nil, fun y x _ => by simp [sumF]⟩

theorem slot_done {es : List Vec} {k : Int} {s : Slot} (h : SlotOk W es k s) (he : s.edges = []) (ha : s.acts = []) {y : Int} (x : Int)
    (hy : k ≤ y) : shape es y x = 0 := by
  obtain ⟨fs, h1, h2⟩ := h.owes
  rw [ha] at h1
  cases h1
  rw [h2 y x hy, he]
  rfl

/-- What the edges of a command write in a band, and what is left. -/
structure BandDoes (W : Box) (es : List Vec) (t e : Int) (res : Slot × List Ev) : Prop where
  draws : ∀ y x, acc y x res.2 = if t ≤ y ∧ y ≤ e then shape es y x else 0
  rows : InRows t (min e ((W.y - 1) / 256)) res.2
  log : LogIn W res.2
  next : SlotOk W es (e + 1) res.1

theorem bandEdges_does {es : List Vec} {H : Int} (hH : 0 < H) {id : Int} (hid : 256 * (e + 1) = (id + 1) * H) (hte : t ≤ e)
    (hf : ∀ v ∈ es, Fine W v) (hs : Sorted H es) {k : Int} (hk : k ≤ t) {s : Slot} (h : SlotOk W es k s) :
    BandDoes W es t e (bandEdges t e s) := by
  obtain ⟨⟨pre, h1⟩, fs, h2, h3⟩ := h
  have hf' : ∀ v ∈ s.edges, Fine W v := fun v hv => hf v (by rw [h1]; exact List.mem_append_right _ hv)
  have hs' : Sorted H s.edges := by
    unfold Sorted at hs
    rw [h1] at hs
    exact (List.pairwise_append.1 hs).2.1
  obtain ⟨⟨pre', n1⟩, n2, gs, n3, n4⟩ := news_does (W := W) hH hid hte s.edges hf' hs'
  have ha : List.Forall₂ (fun r f => Does W t e f r) (s.acts.map (resume t e)) fs :=
    forall2_map h2 fun a f h => resume_does h hk hte
  obtain ⟨D1, D2, D3, hs, D4, D5⟩ := does_all (forall2_append ha n3)
  unfold bandEdges
  simp only []
  generalize hn : news t e s.edges = n at *
  have above : ∀ y x, y ≤ e → shape n.1 y x = 0 := by
    intro y x hy
    refine shape_above (k := e + 1) x (by omega) _ fun v hv => ?_
    have hv' := hf' v (by rw [n1]; exact List.mem_append_right _ hv)
    have h2 := n2 v hv
    refine ⟨hv'.down, ?_⟩
    cases hp : v.pts with
    | nil => exact absurd hp hv'.some
    | cons p l =>
      refine ⟨p, l, rfl, ?_⟩
      have : firstY v = p.y := by unfold firstY; rw [hp]
      omega
  refine ⟨fun y x => ?_, D2, D3, ⟨pre ++ pre', by rw [h1, n1, List.append_assoc]⟩, hs, D4, fun y x hy => ?_⟩
  · rw [D1]
    by_cases c : t ≤ y ∧ y ≤ e
    · rw [if_pos c, if_pos c, sumF_append, h3 y x (by omega), n4 y x c.1, above y x c.2, Int.add_zero]
    · rw [if_neg c, if_neg c]
  · rw [D5 y x (by omega), sumF_append, h3 y x (by omega), n4 y x (by omega), Int.add_assoc]

end Blend2D.Async
