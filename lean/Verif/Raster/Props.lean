import Verif.Raster.Run

/-!
# C49: the cells that an edge writes

`Spec.cover` says what an edge contributes to a pixel; `Spec.acc` is what the fill (C47) reads from the cells.
-/

namespace Blend2D.Raster
open Spec

/-- What the renderer does with a line that it has prepared: it draws the scanlines up to `b` (`rasterize` with
`kOptionBandingMode` and `_band_end = b`; rendercommandprocsync_p.h:160, rendercommandprocasync_p.h:349), all that are left
(`rasterize` without it; rendercommandprocsync_p.h:216), or goes on to scanline `t` (`advanceToY`;
rendercommandprocasync_p.h:345, 417). -/
inductive Cmd where
  | band (b : Int)
  | rest
  | skip (t : Int)

/-- The calls, one after another: the last returned value, the state and all writes. -/
def drive (neg : Bool) : Bool → St → List Cmd → Bool × St × List Ev
  | d, s, [] => (d, s, [])
  | _, s, .band b :: l =>
    let r := rasterize neg (some b) s
    let q := drive neg r.1 r.2.1 l
    (q.1, q.2.1, r.2.2 ++ q.2.2)
  | _, s, .rest :: l =>
    let r := rasterize neg none s
    let q := drive neg r.1 r.2.1 l
    (q.1, q.2.1, r.2.2 ++ q.2.2)
  | d, s, .skip t :: l => drive neg d (advanceToY s t) l

/-- The calls that the renderer makes for a line that is at scanline `k` and that has its last scanline at `last`: bands
follow each other, a line that has ended gets no more calls, and scanlines are skipped only up to the last one. -/
def Calls (last : Int) : Int → List Cmd → Prop
  | _, [] => True
  | k, .band b :: l => k ≤ b ∧ (b < last ∨ l = []) ∧ Calls last (b + 1) l
  | _, .rest :: l => l = []
  | k, .skip t :: l => t ≤ last ∧ Calls last (max k t) l

/-- Is scanline `y` drawn by the calls? -/
def drawn (y : Int) : Int → List Cmd → Prop
  | _, [] => False
  | k, .band b :: l => (k ≤ y ∧ y ≤ b) ∨ drawn y (b + 1) l
  | k, .rest :: _ => k ≤ y
  | k, .skip t :: l => drawn y (max k t) l

/-- The end of the calls: the line has been drawn to its end. -/
def ends (last : Int) : Bool → List Cmd → Prop
  | d, [] => d = true
  | _, .band b :: l => ends last (decide (last ≤ b)) l
  | _, .rest :: l => ends last true l
  | d, .skip _ :: l => ends last d l

theorem cover_outside {p0 p1 : Pt} {y : Int} (x : Int) (h : y < p0.y / 256 ∨ (p1.y - 1) / 256 < y) : cover p0 p1 y x = 0 := by
  unfold cover
  rw [if_neg (by unfold top bottom; omega)]

theorem drawn_ge {y last : Int} : ∀ {k : Int} {l : List Cmd}, Calls last k l → drawn y k l → k ≤ y := by
  intro k l
  induction l generalizing k with
  | nil => intro _ h; exact h.elim
  | cons c l ih =>
    intro hc h
    cases c with
    | band b =>
      rcases h with h | h
      · exact h.1
      · have := ih hc.2.2 h
        have := hc.1
        omega
    | rest => exact h
    | skip t =>
      have := ih hc.2 h
      omega

theorem drive_acc {p0 p1 : Pt} (neg : Bool) (hy : p0.y < p1.y) (hg : ¬ Glitch p0 p1) (y x : Int) :
    ∀ (l : List Cmd) {k : Int} {s : St} (d : Bool), Ready p0 p1 k s → Calls ((p1.y - 1) / 256) k l →
      (drawn y k l → acc y x (drive neg d s l).2.2 = sgn neg * cover p0 p1 y x) ∧
      (¬ drawn y k l → acc y x (drive neg d s l).2.2 = 0) ∧
      ((drive neg d s l).1 = true ↔ ends ((p1.y - 1) / 256) d l) := by
  intro l
  induction l with
  | nil =>
    intro k s d _ _
    exact ⟨fun h => h.elim, fun _ => rfl, Iff.rfl⟩
  | cons c l ih =>
    intro k s d h hc
    cases c with
    | band b =>
      obtain ⟨h1, h2, h3⟩ := hc
      have o := rasterize_spec (band := some b) neg hy hg h (fun b' hb => by cases hb; exact h1)
      have hd := o.draws y x
      have hret := o.ret
      have hlo := h.lo
      have hhi := h.hi
      unfold lastRow at hd hret
      simp only [] at hd hret
      show (drawn y k (.band b :: l) → acc y x ((rasterize neg (some b) s).2.2 ++ _) = _) ∧
        (¬ drawn y k (.band b :: l) → acc y x ((rasterize neg (some b) s).2.2 ++ _) = 0) ∧ _
      rw [acc_append, hd]
      have hrest : (drawn y (b + 1) l → acc y x (drive neg (rasterize neg (some b) s).1 (rasterize neg (some b) s).2.1 l).2.2 =
          sgn neg * cover p0 p1 y x) ∧
          (¬ drawn y (b + 1) l → acc y x (drive neg (rasterize neg (some b) s).1 (rasterize neg (some b) s).2.1 l).2.2 = 0) ∧
          ((drive neg (rasterize neg (some b) s).1 (rasterize neg (some b) s).2.1 l).1 = true ↔
            ends ((p1.y - 1) / 256) (decide ((p1.y - 1) / 256 ≤ b)) l) := by
        rcases h2 with h2 | h2
        · have hn := o.next (by unfold lastRow; simp only []; omega)
          unfold lastRow at hn
          simp only [show min ((p1.y - 1) / 256) b = b by omega] at hn hret
          have := ih (rasterize neg (some b) s).1 hn h3
          rw [show decide ((p1.y - 1) / 256 ≤ b) = (rasterize neg (some b) s).1 by
            rw [hret, decide_eq_decide]; omega]
          exact this
        · subst h2
          refine ⟨fun h => h.elim, fun _ => rfl, ?_⟩
          show (rasterize neg (some b) s).1 = true ↔ _ = true
          rw [hret, decide_eq_true_iff, decide_eq_true_iff]
          omega
      refine ⟨?_, ?_, hrest.2.2⟩
      · intro hdr
        by_cases c1 : k ≤ y ∧ y ≤ b
        · have : ¬ drawn y (b + 1) l := by
            intro hh
            have := drawn_ge h3 hh
            omega
          rw [hrest.2.1 this]
          by_cases c2 : y ≤ (p1.y - 1) / 256
          · rw [if_pos (by omega)]; omega
          · rw [if_neg (by omega), cover_outside x (Or.inr (by omega))]; omega
        · rcases hdr with hdr | hdr
          · exact absurd hdr c1
          · rw [hrest.1 hdr]
            have := drawn_ge h3 hdr
            rw [if_neg (by omega)]; omega
      · intro hdr
        have c1 : ¬ (k ≤ y ∧ y ≤ b) := fun hh => hdr (Or.inl hh)
        rw [hrest.2.1 (fun hh => hdr (Or.inr hh)), if_neg (by omega)]; omega
    | rest =>
      have hc : l = [] := hc
      subst hc
      have o := rasterize_spec (band := none) neg hy hg h (fun b' hb => by cases hb)
      have hd := o.draws y x
      have hret := o.ret
      have hlo := h.lo
      unfold lastRow at hd hret
      simp only [] at hd hret
      show (drawn y k [.rest] → acc y x ((rasterize neg none s).2.2 ++ []) = _) ∧
        (¬ drawn y k [.rest] → acc y x ((rasterize neg none s).2.2 ++ []) = 0) ∧
        ((rasterize neg none s).1 = true ↔ true = true)
      rw [List.append_nil, hd]
      refine ⟨?_, ?_, ?_⟩
      · intro hh
        have hh : k ≤ y := hh
        by_cases c2 : y ≤ (p1.y - 1) / 256
        · rw [if_pos (by omega)]
        · rw [if_neg (by omega), cover_outside x (Or.inr (by omega))]; omega
      · intro hh
        have hh : ¬ k ≤ y := hh
        rw [if_neg (by omega)]
      · rw [hret]; simp
    | skip t => exact ih d (advance_spec h hc.1) hc.2

/-- **C49** An edge that is drawn at once: in every pixel of every scanline the fill finds exactly the coverage of the
edge, with the sign of its direction, and nothing outside of the scanlines it crosses.  Missing (hence `_partial`): the
edges of `Glitch`, whose pixels are wrong (`C49_glitch`). -/
theorem C49_line_partial {p0 p1 : Pt} {s : St} (neg : Bool) (hy : p0.y < p1.y) (hg : ¬ Glitch p0 p1)
    (h : prepare p0 p1 = some s) (y x : Int) :
    acc y x (rasterize neg none s).2.2 = (if neg then -1 else 1) * cover p0 p1 y x ∧ (rasterize neg none s).1 = true := by
  have hr := prepare_ready hy h
  have o := rasterize_spec (band := none) neg hy hg hr (fun b' hb => by cases hb)
  have hd := o.draws y x
  have hret := o.ret
  unfold lastRow at hd hret
  refine ⟨?_, by rw [hret]; simp⟩
  rw [hd]
  by_cases c : p0.y / 256 ≤ y ∧ y < (p1.y - 1) / 256 + 1
  · rw [if_pos c]; rfl
  · rw [if_neg c, cover_outside x (by omega)]; omega

/-- **C49** An edge that is drawn band by band, by whatever bands and with whatever scanlines skipped in between: the
scanlines that were drawn hold what they hold when the edge is drawn at once, the others hold nothing, and the last call
says that the edge has ended exactly when it has. -/
theorem C49_bands_partial {p0 p1 : Pt} {s : St} (neg : Bool) (hy : p0.y < p1.y) (hg : ¬ Glitch p0 p1)
    (h : prepare p0 p1 = some s) (l : List Cmd) (hc : Calls ((p1.y - 1) / 256) (p0.y / 256) l) (y x : Int) :
    (drawn y (p0.y / 256) l → acc y x (drive neg false s l).2.2 = acc y x (rasterize neg none s).2.2) ∧
    (¬ drawn y (p0.y / 256) l → acc y x (drive neg false s l).2.2 = 0) ∧
    ((drive neg false s l).1 = true ↔ ends ((p1.y - 1) / 256) false l) := by
  have hd := drive_acc neg hy hg y x l false (prepare_ready hy h) hc
  refine ⟨fun hh => ?_, hd.2⟩
  rw [hd.1 hh, (C49_line_partial neg hy hg h y x).1]
  rfl

/-- **C49** `prepare` refuses the edges without height only. -/
theorem C49_prepare {p0 p1 : Pt} (hy : p0.y ≤ p1.y) : prepare p0 p1 = none ↔ p0.y = p1.y := by
  unfold prepare
  constructor
  · intro h
    by_contra hc
    rw [if_neg hc] at h
    have : ∀ (c : Prop) [Decidable c] (a b : St), (if c then some a else some b) ≠ none := by
      intro c _ a b
      split <;> simp
    exact this _ _ _ h
  · intro h
    rw [if_pos h]

/-- All writes lie within the recorded bounds, and the bounds within the edge. -/
structure Within (p0 p1 : Pt) (log : List Ev) : Prop where
  cells : ∀ y x v, Ev.cell y x v ∈ log → (∃ lo, Ev.minX lo ∈ log ∧ lo ≤ x) ∧ ∃ hi, Ev.maxX hi ∈ log ∧ x ≤ hi + 1
  marks : ∀ y a b, Ev.mark y a b ∈ log → a ≤ b ∧ (∃ lo, Ev.minX lo ∈ log ∧ lo / 4 ≤ a) ∧ ∃ hi, Ev.maxX hi ∈ log ∧ b ≤ hi / 4
  left : ∀ lo, Ev.minX lo ∈ log → min p0.x p1.x / 256 ≤ lo ∧ lo ≤ max p0.x p1.x / 256
  right : ∀ hi, Ev.maxX hi ∈ log → min p0.x p1.x / 256 ≤ hi ∧ hi ≤ max p0.x p1.x / 256
  covered : ∀ y x v, Ev.cell y x v ∈ log → marked y (x / 4) log ∨ (x % 4 = 0 ∧ marked y (x / 4 - 1) log)

theorem Within.nil (p0 p1 : Pt) : Within p0 p1 [] :=
  ⟨fun _ _ _ h => by simp at h, fun _ _ _ h => by simp at h, fun _ h => by simp at h, fun _ h => by simp at h,
    fun _ _ _ h => by simp at h⟩

theorem Within.append {p0 p1 : Pt} {l m : List Ev} (h : Within p0 p1 l) (h' : Within p0 p1 m) : Within p0 p1 (l ++ m) := by
  constructor
  · intro y x v hm
    rcases List.mem_append.1 hm with hm | hm
    · obtain ⟨⟨a, a1, a2⟩, b, b1, b2⟩ := h.cells y x v hm
      exact ⟨⟨a, List.mem_append_left _ a1, a2⟩, b, List.mem_append_left _ b1, b2⟩
    · obtain ⟨⟨a, a1, a2⟩, b, b1, b2⟩ := h'.cells y x v hm
      exact ⟨⟨a, List.mem_append_right _ a1, a2⟩, b, List.mem_append_right _ b1, b2⟩
  · intro y x v hm
    rcases List.mem_append.1 hm with hm | hm
    · obtain ⟨c, ⟨a, a1, a2⟩, b, b1, b2⟩ := h.marks y x v hm
      exact ⟨c, ⟨a, List.mem_append_left _ a1, a2⟩, b, List.mem_append_left _ b1, b2⟩
    · obtain ⟨c, ⟨a, a1, a2⟩, b, b1, b2⟩ := h'.marks y x v hm
      exact ⟨c, ⟨a, List.mem_append_right _ a1, a2⟩, b, List.mem_append_right _ b1, b2⟩
  · intro lo hm
    rcases List.mem_append.1 hm with hm | hm
    · exact h.left lo hm
    · exact h'.left lo hm
  · intro lo hm
    rcases List.mem_append.1 hm with hm | hm
    · exact h.right lo hm
    · exact h'.right lo hm
  · intro y x v hm
    rcases List.mem_append.1 hm with hm | hm
    · rcases h.covered y x v hm with a | a
      · exact Or.inl (marked_append_left _ a)
      · exact Or.inr ⟨a.1, marked_append_left _ a.2⟩
    · rcases h'.covered y x v hm with a | a
      · exact Or.inl (marked_append_right _ a)
      · exact Or.inr ⟨a.1, marked_append_right _ a.2⟩

theorem Bounded.within {p0 p1 : Pt} {log : List Ev} (h : Bounded p0 p1 log) : Within p0 p1 log := by
  obtain ⟨lo, hi, h1, h2, h3, h4, h5, h6, h7, h8⟩ := h
  refine ⟨?_, ?_, ?_, ?_, h3.covered⟩
  · intro y x v hm
    have := h3.cells y x v hm
    exact ⟨⟨lo, h1, this.1⟩, hi, h2, this.2⟩
  · intro y x v hm
    have := h3.marks y x v hm
    exact ⟨this.2.1, ⟨lo, h1, this.1⟩, hi, h2, this.2.2⟩
  · intro m hm
    rw [h7 m hm]
    omega
  · intro m hm
    rw [h8 m hm]
    omega

theorem drive_within {p0 p1 : Pt} (neg : Bool) (hy : p0.y < p1.y) (hg : ¬ Glitch p0 p1) :
    ∀ (l : List Cmd) {k : Int} {s : St} (d : Bool), Ready p0 p1 k s → Calls ((p1.y - 1) / 256) k l →
      Within p0 p1 (drive neg d s l).2.2 := by
  intro l
  induction l with
  | nil => intro k s d _ _; exact Within.nil p0 p1
  | cons c l ih =>
    intro k s d h hc
    cases c with
    | band b =>
      obtain ⟨h1, h2, h3⟩ := hc
      have o := rasterize_spec (band := some b) neg hy hg h (fun b' hb => by cases hb; exact h1)
      refine o.bounded.within.append ?_
      rcases h2 with h2 | h2
      · have hn := o.next (by unfold lastRow; simp only []; omega)
        unfold lastRow at hn
        simp only [show min ((p1.y - 1) / 256) b = b by omega] at hn
        exact ih _ hn h3
      · subst h2; exact Within.nil p0 p1
    | rest =>
      have hc : l = [] := hc
      subst hc
      have o := rasterize_spec (band := none) neg hy hg h (fun b' hb => by cases hb)
      exact o.bounded.within.append (Within.nil p0 p1)
    | skip t => exact ih d (advance_spec h hc.1) hc.2

/-- **C49** Whatever the calls are, the writes stay within the pixels of the edge and the one to the right of them; the
recorded bounds hold them all; and every cell that is written lies in a marked group or directly behind one, so that the
fill finds it. -/
theorem C49_bounds_partial {p0 p1 : Pt} {s : St} (neg : Bool) (hy : p0.y < p1.y) (hg : ¬ Glitch p0 p1)
    (h : prepare p0 p1 = some s) (l : List Cmd) (hc : Calls ((p1.y - 1) / 256) (p0.y / 256) l) :
    Within p0 p1 (drive neg false s l).2.2 :=
  drive_within neg hy hg l false (prepare_ready hy h) hc

/-- **C49** Left of the edge there is no coverage. -/
theorem C49_left {p0 p1 : Pt} {y x : Int} (h : 256 * x + 256 ≤ min (xAt p0 p1 (top p0 y)) (xAt p0 p1 (bottom p1 y))) :
    cover p0 p1 y x = 0 := by
  have e1 : leftOf p0 p1 y (256 * x + 256) = 0 := by
    unfold leftOf
    simp only []
    rw [if_pos h]
  have e2 : leftOf p0 p1 y (256 * x) = 0 := by
    unfold leftOf
    simp only []
    rw [if_pos (by omega)]
  unfold cover
  rw [e1, e2]
  simp

/-- **C49** Right of the edge the coverage is the full width for the height of the edge in the scanline. -/
theorem C49_right {p0 p1 : Pt} {y x : Int} (hlt : top p0 y < bottom p1 y)
    (h : max (xAt p0 p1 (top p0 y)) (xAt p0 p1 (bottom p1 y)) ≤ 256 * x) :
    cover p0 p1 y x = 512 * (bottom p1 y - top p0 y) := by
  unfold cover leftOf clamp
  simp only []
  rw [if_pos hlt]
  by_cases c : 256 * x ≤ min (xAt p0 p1 (top p0 y)) (xAt p0 p1 (bottom p1 y))
  · rw [if_pos c, if_neg (by omega), if_pos (by omega)]
    have e1 : max (min (xAt p0 p1 (top p0 y)) (xAt p0 p1 (bottom p1 y)))
        (min (256 * x) (max (xAt p0 p1 (top p0 y)) (xAt p0 p1 (bottom p1 y)))) = 256 * x := by omega
    have e2 : max (min (xAt p0 p1 (top p0 y)) (xAt p0 p1 (bottom p1 y)))
        (min (256 * x + 256) (max (xAt p0 p1 (top p0 y)) (xAt p0 p1 (bottom p1 y)))) = 256 * x := by omega
    rw [e1, e2]
    ring
  · rw [if_neg c, if_pos h, if_neg (by omega), if_pos (by omega)]
    ring

/-- **C49** The crossings are rounded: the error is at most half a unit (and half a part more for odd parts). -/
theorem C49_round (n : Int) {d : Int} (hd : 0 < d) : n - d / 2 ≤ d * round n d ∧ d * round n d ≤ n + (d + 1) / 2 := by
  unfold round
  have h1 := Int.emod_add_mul_ediv (n + (d + 1) / 2) d
  have h2 := Int.emod_nonneg (n + (d + 1) / 2) (by omega : d ≠ 0)
  have h3 := Int.emod_lt_of_pos (n + (d + 1) / 2) hd
  omega

/-- **C49** Only edges that are one or two units away from a diagonal can be a `Glitch`. -/
theorem C49_glitch_diagonal {p0 p1 : Pt} (hy : p0.y < p1.y) (h : Glitch p0 p1) :
    p1.y - p0.y = |p1.x - p0.x| + 1 ∨ p1.y - p0.y = |p1.x - p0.x| + 2 := by
  obtain ⟨h1, h2, c, r, r1, r2, h3, h4⟩ := h
  unfold yAt at h3
  unfold xAt at h4
  rw [if_neg (by omega), if_neg (by omega)] at h4
  have key : ∀ a d u v : Int, 0 < a → a ≤ d → 0 < u → 0 < v → v < d → v ≤ round (d * u) a → u < round (a * v) d →
      d = a + 1 ∨ d = a + 2 := by
    intro a d u v ha had hu hv hvd q1 q2
    have e1 := (C49_round (d * u) ha).2
    have e2 := (C49_round (a * v) (show 0 < d by omega)).2
    have f1 : a * v ≤ a * round (d * u) a := Int.mul_le_mul_of_nonneg_left q1 (by omega)
    have f2 : d * (u + 1) ≤ d * round (a * v) d := Int.mul_le_mul_of_nonneg_left q2 (by omega)
    rw [Int.mul_add] at f2
    by_cases hc : d = a
    · subst hc
      exfalso
      have g1 : d * v ≤ d * u + (d + 1) / 2 := by omega
      have g2 : d * u + d ≤ d * v + (d + 1) / 2 := by omega
      by_cases hd1 : d = 1
      · omega
      · have g3 : d * (v - u) < d * 1 := by rw [Int.mul_sub]; omega
        have g4 : d * 0 < d * (v - u) := by rw [Int.mul_sub]; omega
        have := Int.lt_of_mul_lt_mul_left g3 (by omega)
        have := Int.lt_of_mul_lt_mul_left g4 (by omega)
        omega
    · omega
  rcases h4 with ⟨h4, h5⟩ | ⟨h4, h5⟩
  · by_cases hx : p0.x ≤ p1.x
    · rw [if_pos hx] at h3 h5
      by_cases he : p0.x = p1.x
      · exfalso
        rw [he] at h5
        have : round ((p1.x - p1.x) * (256 * r - p0.y)) (p1.y - p0.y) ≤ 0 := by
          rw [show (p1.x - p1.x) = 0 by omega, Int.zero_mul]
          unfold round
          have := C49_round 0 (show 0 < p1.y - p0.y by omega)
          unfold round at this
          by_contra hc
          have : (p1.y - p0.y) * 1 ≤ (p1.y - p0.y) * ((0 + (p1.y - p0.y + 1) / 2) / (p1.y - p0.y)) :=
            Int.mul_le_mul_of_nonneg_left (by omega) (by omega)
          omega
        omega
      · have := key (p1.x - p0.x) (p1.y - p0.y) (256 * c - p0.x) (256 * r - p0.y) (by omega) h1 (by omega) (by omega)
          (by omega) (by omega) (by omega)
        rw [abs_of_nonneg (by omega)]
        omega
    · rw [if_neg hx] at h5
      exfalso
      have := (C49_round ((p0.x - p1.x) * (256 * r - p0.y)) (show 0 < p1.y - p0.y by omega)).1
      have hm : 0 ≤ (p0.x - p1.x) * (256 * r - p0.y) := Int.mul_nonneg (by omega) (by omega)
      have : (p1.y - p0.y) * round ((p0.x - p1.x) * (256 * r - p0.y)) (p1.y - p0.y) ≤ (p1.y - p0.y) * (-1) :=
        Int.mul_le_mul_of_nonneg_left (by omega) (by omega)
      omega
  · by_cases hx : p0.x ≤ p1.x
    · rw [if_pos hx] at h5
      exfalso
      have := (C49_round ((p1.x - p0.x) * (256 * r - p0.y)) (show 0 < p1.y - p0.y by omega)).1
      have hm : 0 ≤ (p1.x - p0.x) * (256 * r - p0.y) := Int.mul_nonneg (by omega) (by omega)
      have : (p1.y - p0.y) * round ((p1.x - p0.x) * (256 * r - p0.y)) (p1.y - p0.y) ≤ (p1.y - p0.y) * (-1) :=
        Int.mul_le_mul_of_nonneg_left (by omega) (by omega)
      omega
    · rw [if_neg hx] at h3 h5
      have := key (p0.x - p1.x) (p1.y - p0.y) (p0.x - 256 * c) (256 * r - p0.y) (by omega) h2 (by omega) (by omega)
        (by omega) (by omega) (by omega)
      rw [abs_of_nonpos (by omega)]
      omega

/-- **C49** (counterexample) The line from (156, 155) to (356, 356): the code leaves a coverage of -15500 in pixel 0 of
scanline 0, where the edge covers 10100; even its sign is wrong. -/
theorem C49_glitch : ∃ s, prepare ⟨156, 155⟩ ⟨356, 356⟩ = some s ∧ Glitch ⟨156, 155⟩ ⟨356, 356⟩ ∧
    acc 0 0 (rasterize false none s).2.2 = -15500 ∧ cover ⟨156, 155⟩ ⟨356, 356⟩ 0 0 = 10100 := by
  refine ⟨_, rfl, ⟨by decide, by decide, 1, 1, by decide, by decide, by decide, Or.inl (by decide)⟩, by decide, by decide⟩

/-- A line that is not a `Glitch`, and what it leaves. -/
example : ¬ Glitch ⟨0, 0⟩ ⟨512, 768⟩ ∧ (∃ s, prepare ⟨0, 0⟩ ⟨512, 768⟩ = some s) ∧ cover ⟨0, 0⟩ ⟨512, 768⟩ 1 0 = 10880 ∧
    Calls ((768 - 1) / 256) (0 / 256) [.band 0, .skip 2, .rest] ∧ drawn 0 0 [.band 0, .skip 2, .rest] ∧
    ¬ drawn 1 0 [.band 0, .skip 2, .rest] := by
  refine ⟨fun h => ?_, ⟨_, rfl⟩, by decide, ⟨by decide, Or.inl (by decide), by decide, rfl⟩, Or.inl (by decide), ?_⟩
  · have := C49_glitch_diagonal (by decide) h
    simp at this
  · intro h
    rcases h with h | h
    · omega
    · exact absurd (show max (0 + 1 : Int) 2 ≤ 1 from h) (by decide)

/-- The counterexample in full: the scanline's total is right, its first two pixels are not. -/
example : (prepare ⟨156, 155⟩ ⟨356, 356⟩).map (fun s => acc 0 1 (rasterize false none s).2.2) = some (cover ⟨156, 155⟩ ⟨356, 356⟩ 0 1 - 256) ∧
    (prepare ⟨156, 155⟩ ⟨356, 356⟩).map (fun s => acc 0 2 (rasterize false none s).2.2) = some (cover ⟨156, 155⟩ ⟨356, 356⟩ 0 2) := by
  decide

end Blend2D.Raster
