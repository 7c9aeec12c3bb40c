import Verif.Draw.Band

/-! # All bands of a shape -/

namespace Blend2D.Draw
open Raster Raster.Spec Spec
open Fill (Comp Row Args)

variable {P : Type}

/-- What the edge builder guarantees of the edges of a shape, for an image of `h` scanlines: `y0` and `y1` are its vertical
bounds, the edges are stored in the band of their first point, there are enough bands, and outlines are closed. -/
structure Shape (F : Cfg) (h y0 y1 : Nat) (bands : List (List Vec)) : Prop where
  height : 0 < F.bh
  order : y0 < y1
  inside : y1 ≤ 256 * h
  enough : h ≤ bands.length * F.bh
  down : ∀ vs ∈ bands, ∀ v ∈ vs, Down v.pts
  box : ∀ vs ∈ bands, ∀ v ∈ vs, ∀ p ∈ v.pts, 0 ≤ p.x ∧ p.x ≤ 256 * F.w ∧ (y0 : Int) ≤ p.y ∧ p.y ≤ y1
  band : ∀ (id : Nat) vs, bands[id]? = some vs → ∀ v ∈ vs, ∃ p l, v.pts = p :: l ∧ p.y / (256 * F.bh) = id
  closed : ∀ y, winding bands.flatten y = 0

section
variable {F : Cfg} {h y0 y1 : Nat} {bands : List (List Vec)}

theorem Shape.inW (S : Shape F h y0 y1 bands) {vs : List Vec} (hv : vs ∈ bands) {v : Vec} (hm : v ∈ vs) : InW ⟨F.w, y1⟩ v.pts := by
  intro p hp
  have := S.box vs hv v hm p hp
  exact ⟨⟨this.1, this.2.1⟩, this.2.2.2⟩

theorem Shape.right (S : Shape F h y0 y1 bands) {y x : Int} (hx : (F.w : Int) ≤ x) : shape bands.flatten y x = 0 := by
  rw [shape_right (W := ⟨F.w, y1⟩) hx _ (fun v hv => ?_), S.closed y]
  · rfl
  · obtain ⟨vs, h1, h2⟩ := List.mem_flatten.1 hv
    exact S.inW h1 h2

theorem Shape.below (S : Shape F h y0 y1 bands) {y : Int} (x : Int) (hy : ((y1 : Int) - 1) / 256 < y) : shape bands.flatten y x = 0 := by
  refine shape_below (W := ⟨F.w, y1⟩) x hy _ fun v hv => ?_
  obtain ⟨vs, h1, h2⟩ := List.mem_flatten.1 hv
  exact S.inW h1 h2

/-- The first point of a vector is in its band, and not above the shape. -/
theorem Shape.first (S : Shape F h y0 y1 bands) {id : Nat} {vs : List Vec} (hv : bands[id]? = some vs) {v : Vec} (hm : v ∈ vs) :
    ∃ p l, v.pts = p :: l ∧ 256 * (id * F.bh : Nat) ≤ p.y ∧ p.y < 256 * ((id + 1) * F.bh : Nat) ∧ (y0 : Int) ≤ p.y ∧ p.y ≤ y1 := by
  obtain ⟨p, l, h1, h2⟩ := S.band id vs hv v hm
  have hb := S.box vs (List.mem_of_getElem? hv) v hm p (by rw [h1]; simp)
  have hpos : (0 : Int) < 256 * F.bh := by have := S.height; omega
  refine ⟨p, l, h1, ?_, ?_, hb.2.2.1, hb.2.2.2⟩
  · have := Int.mul_ediv_self_le (x := p.y) (k := 256 * F.bh) (by omega)
    rw [h2] at this
    push_cast
    calc (256 : Int) * (id * F.bh) = 256 * F.bh * id := by ring
      _ ≤ p.y := this
  · have := Int.lt_mul_ediv_self_add (x := p.y) hpos
    rw [h2] at this
    push_cast
    calc p.y < 256 * F.bh * id + 256 * F.bh := this
      _ = 256 * (((id : Int) + 1) * F.bh) := by ring

/-- Bands from `id` on cover nothing above band `id`. -/
theorem Shape.later (S : Shape F h y0 y1 bands) (id : Nat) {y : Int} (x : Int) (hy : y < (id * F.bh : Nat)) :
    shape (bands.drop id).flatten y x = 0 := by
  refine shape_above (k := (id * F.bh : Nat)) x hy _ fun v hv => ?_
  obtain ⟨vs, h1, h2⟩ := List.mem_flatten.1 hv
  obtain ⟨i, hi1, hi2⟩ := List.getElem_of_mem h1
  rw [List.getElem_drop] at hi2
  have hget : bands[id + i]? = some vs := by rw [← hi2]; exact List.getElem?_eq_getElem _
  obtain ⟨p, l, e1, e2, e3, _⟩ := S.first hget h2
  refine ⟨S.down vs (List.mem_of_getElem? hget) v h2, p, l, e1, ?_⟩
  have : id * F.bh ≤ (id + i) * F.bh := Nat.mul_le_mul_right _ (by omega)
  omega

/-- There is nothing in the bands before the first one. -/
theorem Shape.earlier (S : Shape F h y0 y1 bands) {id : Nat} (hid : id ≤ y0 / (256 * F.bh)) (y x : Int) :
    shape bands.flatten y x = shape (bands.drop id).flatten y x := by
  conv => lhs; rw [← List.take_append_drop id bands]
  rw [List.flatten_append, shape_append]
  have : (bands.take id).flatten = [] := by
    rw [List.flatten_eq_nil_iff]
    intro vs hvs
    obtain ⟨i, hi1, hi2⟩ := List.getElem_of_mem hvs
    rw [List.getElem_take] at hi2
    have hi : i < id := by simp at hi1; omega
    by_contra hne
    obtain ⟨v, hv⟩ := List.exists_mem_of_ne_nil vs hne
    have hget : bands[i]? = some vs := by rw [← hi2]; exact List.getElem?_eq_getElem _
    obtain ⟨p, l, e1, e2, e3, e4, _⟩ := S.first hget hv
    have h1 : (i + 1) * F.bh ≤ id * F.bh := Nat.mul_le_mul_right _ (by omega)
    have h2 : id * (256 * F.bh) ≤ y0 := by
      exact (Nat.le_div_iff_mul_le (by have := S.height; omega)).1 hid
    have h3 : id * (256 * F.bh) = 256 * (id * F.bh) := by ring
    omega
  rw [this]
  simp [shape]

variable {C : Nat → Comp P}

/-- The image when all scanlines above `k` are finished. -/
def ImgAt (F : Cfg) (C : Nat → Comp P) (a : Int → Int → Int) (k : Nat) (img0 img : List (List P)) : Prop :=
  img.length = img0.length ∧ ∀ y row, img0[y]? = some row → ∃ row', img[y]? = some row' ∧
    if y < k then Painted F C a y row row' else row' = row

/-- The state before band `id`. -/
structure Inv (F : Cfg) (C : Nat → Comp P) (y0 y1 : Nat) (bands : List (List Vec)) (img0 : List (List P)) (id off : Nat) (acts : List Act)
    (b : Bufs) (img : List (List P)) : Prop where
  lo : id * F.bh ≤ off
  hi : off < (id + 1) * F.bh
  start : off = id * F.bh ∨ off = y0 / 256
  owes : ∃ fs, List.Forall₂ (Owes ⟨F.w, y1⟩ off) acts fs ∧
    ∀ y x, (off : Int) ≤ y → shape bands.flatten y x = sumF fs y x + shape (bands.drop id).flatten y x
  clean : Clean F.w F.bh b
  img : ImgAt F C (shape bands.flatten) off img0 img

/-- No edge is active below the shape. -/
theorem owes_none {W : Box} {k : Int} {acts : List Act} {fs : List (Int → Int → Int)} (h : List.Forall₂ (Owes W k) acts fs)
    (hk : (W.y - 1) / 256 < k) : acts = [] ∧ fs = [] := by
  cases h with
  | nil => exact ⟨rfl, rfl⟩
  | cons h1 _ =>
    obtain ⟨p, q, l, _, _, h3, _, _, h6, _⟩ := h1
    have h7 := h3.hi
    have h8 := (h6 q (by simp)).2
    omega

theorem Painted.congr {a a' : Int → Int → Int} {y : Nat} {row row' : List P} (hp : Painted F C a y row row')
    (ha : ∀ x : Nat, a y x = a' y x) : Painted F C a' y row row' :=
  ⟨hp.1, fun x hx => by rw [← ha]; exact hp.2 x hx⟩

theorem step (S : Shape F h y0 y1 bands) (hC : ∀ y, Fill.Good (C y)) (hr : F.rule = BitVec.allOnes 32 ∨ F.rule = 0x1FF#32)
    (ha : F.alpha ≤ 255) {img0 : List (List P)} (hh : img0.length = h) (hwid : ∀ row ∈ img0, row.length = F.w)
    (hra : ∀ y x : Nat, -(2 ^ 31) ≤ 0x20000 + shape bands.flatten y x ∧ 0x20000 + shape bands.flatten y x < 2 ^ 31)
    {id off : Nat} {acts : List Act} {b : Bufs} {img : List (List P)} (I : Inv F C y0 y1 bands img0 id off acts b img) {new : List Vec}
    (hnew : bands[id]? = some new) :
    ∃ acts' b1 b' img', bandEdges ((bandStop F ((y1 + 255) / 256) id : Int) - 1) acts new = acts' ∧
      writes F.o off { b with minX := 2 ^ 32 - 1, maxX := 0 } acts'.2 = some b1 ∧
      fillBand F C off (bandStop F ((y1 + 255) / 256) id - off) b1 img = some (b', img') ∧
      (off + F.bh) / F.bh * F.bh = (id + 1) * F.bh ∧
      Inv F C y0 y1 bands img0 (id + 1) ((id + 1) * F.bh) acts'.1 b' img' := by
  obtain ⟨fs, o1, o2⟩ := I.owes
  have hpos := S.height
  have hlo := I.lo
  have hhi := I.hi
  have hsucc : (id + 1) * F.bh = id * F.bh + F.bh := Nat.succ_mul _ _
  have hsucc2 : (id + 1 + 1) * F.bh = id * F.bh + F.bh + F.bh := by rw [Nat.succ_mul, Nat.succ_mul]
  have hdrop : bands.drop id = new :: bands.drop (id + 1) := by
    have hid := (List.getElem?_eq_some_iff.1 hnew)
    obtain ⟨h1, h2⟩ := hid
    rw [List.drop_eq_getElem_cons h1, h2]
  have hlater := fun y x hy => S.later (id + 1) (y := y) x hy
  have hnext : (off + F.bh) / F.bh * F.bh = (id + 1) * F.bh := by
    have h1 : (off + F.bh) / F.bh = off / F.bh + 1 := Nat.add_div_right _ hpos
    have h2 : off / F.bh = id := by
      refine Nat.div_eq_of_lt_le hlo hhi
    rw [h1, h2]
  have hstop : bandStop F ((y1 + 255) / 256) id = min (id * F.bh + F.bh) ((y1 + 255) / 256) := by
    unfold bandStop
    rw [hsucc]
  rw [hstop]
  rw [hsucc] at hhi hlater hnext ⊢
  generalize hM : id * F.bh = M at *
  generalize hst : min (M + F.bh) ((y1 + 255) / 256) = st
  have hk : (off : Int) ≤ (st : Int) - 1 ∨ acts = [] := by
    by_cases c : (off : Int) ≤ (st : Int) - 1
    · exact Or.inl c
    · exact Or.inr (owes_none o1 (by show ((y1 : Int) - 1) / 256 < off; omega)).1
  have hstarts : ∀ v ∈ new, Starts ⟨F.w, y1⟩ off ((st : Int) - 1) v := by
    intro v hv
    obtain ⟨p, l, e1, e2, e3, e4, e5⟩ := S.first hnew hv
    rw [hsucc] at e3
    rw [hM] at e2
    refine ⟨S.down new (List.mem_of_getElem? hnew) v hv, S.inW (List.mem_of_getElem? hnew) hv, p, l, e1, by omega, ?_⟩
    rcases I.start with s | s <;> omega
  have D := bandEdges_does o1 hk hstarts
  generalize bandEdges ((st : Int) - 1) acts new = res at D
  -- what is drawn
  have hacc : ∀ y x, acc y x res.2 = if (off : Int) ≤ y ∧ y ≤ (st : Int) - 1 then shape bands.flatten y x else 0 := by
    intro y x
    rw [D.draws]
    by_cases c : (off : Int) ≤ y ∧ y ≤ (st : Int) - 1
    · rw [if_pos c, if_pos c, o2 y x c.1, hdrop, List.flatten_cons, shape_append, hlater y x (by omega)]
      simp
    · rw [if_neg c, if_neg c]
  obtain ⟨b1, w1, w2⟩ := writes_ok (w := F.w) (bh := F.bh) res.2 [] _ (clean_holds F.o off (2 ^ 32 - 1) I.clean)
    (fit_of (W := ⟨F.w, y1⟩) rfl D.log (D.rows.mono (Int.le_refl _) (Int.min_le_left _ _)) (by omega))
  rw [List.nil_append] at w2
  have hin := S.inside
  have hwid' : ∀ row ∈ img, row.length = F.w := by
    intro row hrow
    obtain ⟨y, hy1, hy2⟩ := List.getElem_of_mem hrow
    have hlen := I.img.1
    obtain ⟨row', g1, g2⟩ := I.img.2 y img0[y] (List.getElem?_eq_getElem (by omega))
    rw [List.getElem?_eq_getElem hy1, hy2] at g1
    have g1 := Option.some.inj g1
    subst g1
    have := hwid img0[y] (List.getElem_mem _)
    by_cases c : y < off
    · rw [if_pos c] at g2
      rw [g2.1, this]
    · rw [if_neg c] at g2
      rw [g2, this]
  obtain ⟨b', img', f1, f2, f3, f4⟩ := fillBand_ok (F := F) (C := C) (W := ⟨F.w, y1⟩) (off := off) (n := st - off) (log := res.2) (b := b1)
    (img := img) hC hr ha rfl w2 D.log (D.rows.mono (Int.le_refl _) (by omega))
    (fun y x hx => by
      rw [hacc]
      split
      · exact S.right hx
      · rfl)
    (fun y x => by
      rw [hacc]
      split
      · exact hra y x
      · omega)
    (by omega) (by rw [I.img.1, hh]; omega) hwid'
  refine ⟨res, b1, b', img', rfl, w1, f1, hnext, ⟨by rw [hsucc], by omega, Or.inl hsucc.symm, ?_, f2, ?_⟩⟩
  · obtain ⟨gs, g1, g2⟩ := D.next
    have hd : ∀ y x, ((M + F.bh : Nat) : Int) ≤ y → shape bands.flatten y x = sumF gs y x + shape (bands.drop (id + 1)).flatten y x := by
      intro y x hy
      rw [o2 y x (by omega), g2 y x (by omega), hdrop, List.flatten_cons, shape_append]
      omega
    by_cases c : st = M + F.bh
    · rw [show (st : Int) - 1 + 1 = ((M + F.bh : Nat) : Int) by omega] at g1
      exact ⟨gs, g1, hd⟩
    · obtain ⟨n1, n2⟩ := owes_none g1 (by show ((y1 : Int) - 1) / 256 < (st : Int) - 1 + 1; omega)
      rw [n1]
      subst n2
      exact ⟨[], .nil, hd⟩
  · refine ⟨by rw [f3, I.img.1], fun y row hrow => ?_⟩
    obtain ⟨row1, r1, r2⟩ := I.img.2 y row hrow
    obtain ⟨row2, q1, q2⟩ := f4 y row1 r1
    refine ⟨row2, q1, ?_⟩
    by_cases c1 : y < off
    · rw [if_pos c1] at r2
      rw [if_neg (by omega)] at q2
      rw [if_pos (by omega), q2]
      exact r2
    · rw [if_neg c1] at r2
      subst r2
      by_cases c2 : y < st
      · rw [if_pos (by omega)] at q2
        rw [if_pos (by omega)]
        exact q2.congr fun x => by simp only [hacc]; rw [if_pos (by omega)]
      · rw [if_neg (by omega)] at q2
        rw [q2]
        by_cases c3 : y < M + F.bh
        · rw [if_pos c3]
          exact painted_zero hC fun x _ => S.below _ (by omega)
        · rw [if_neg c3]

/-- All bands. -/
theorem drawBands_ok (S : Shape F h y0 y1 bands) (hC : ∀ y, Fill.Good (C y)) (hr : F.rule = BitVec.allOnes 32 ∨ F.rule = 0x1FF#32)
    (ha : F.alpha ≤ 255) {img0 : List (List P)} (hh : img0.length = h) (hwid : ∀ row ∈ img0, row.length = F.w)
    (hra : ∀ y x : Nat, -(2 ^ 31) ≤ 0x20000 + shape bands.flatten y x ∧ 0x20000 + shape bands.flatten y x < 2 ^ 31) :
    ∀ (n id off : Nat) (acts : List Act) (b : Bufs) (img : List (List P)), Inv F C y0 y1 bands img0 id off acts b img →
      id + n ≤ bands.length → 0 < n →
      ∃ b' img', drawBands F C ((y1 + 255) / 256) bands n id off acts b img = some (b', img') ∧ Clean F.w F.bh b' ∧
        ImgAt F C (shape bands.flatten) ((id + n) * F.bh) img0 img' := by
  intro n
  induction n with
  | zero => intro _ _ _ _ _ _ _ h0; omega
  | succ n ih =>
    intro id off acts b img I hid _
    have hnew : bands[id]? = some bands[id] := List.getElem?_eq_getElem (by omega)
    obtain ⟨acts', b1, b', img', e1, e2, e3, e4, e5⟩ := step S hC hr ha hh hwid hra I hnew
    have hd : drawBands F C ((y1 + 255) / 256) bands (n + 1) id off acts b img =
        drawBands F C ((y1 + 255) / 256) bands n (id + 1) ((id + 1) * F.bh) acts'.1 b' img' := by
      simp only [drawBands, hnew, Option.bind_eq_bind, Option.bind_some, e1, e2, e3, e4]
    rw [hd]
    by_cases c : n = 0
    · subst c
      exact ⟨b', img', rfl, e5.clean, e5.img⟩
    · obtain ⟨b2, img2, g1, g2, g3⟩ := ih _ _ _ _ _ e5 (by omega) (by omega)
      refine ⟨b2, img2, g1, g2, ?_⟩
      rw [show id + 1 + n = id + (n + 1) by omega] at g3
      exact g3

end

end Blend2D.Draw
