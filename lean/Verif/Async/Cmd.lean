import Verif.Async.Band
import Verif.Async.Spec

/-! # A worker in a band -/

namespace Blend2D.Async
open Draw Draw.Spec Raster Raster.Spec Spec
open Fill (Comp Row Args)

variable {P : Type} {E : Env}

/-- The bounds of all shapes. -/
def box (E : Env) : Box := ⟨E.w, 256 * E.h⟩

theorem Spec.CmdOk.fine {c : Cmd P} (h : CmdOk E c) : ∀ v ∈ c.edges, Fine (box E) v := fun v hv =>
  ⟨h.edges.down v hv, fun p hp => by
    have := h.edges.box v hv p hp
    exact ⟨⟨this.1, this.2.1⟩, this.2.2.2⟩, h.edges.some v hv⟩

theorem Spec.CmdOk.right {c : Cmd P} (h : CmdOk E c) {y x : Int} (hx : (E.w : Int) ≤ x) : shape c.edges y x = 0 := by
  rw [shape_right (W := box E) hx _ (fun v hv => (h.fine v hv).box), h.edges.closed y]
  rfl

theorem Spec.CmdOk.below {c : Cmd P} (h : CmdOk E c) {y : Int} (x : Int) (hy : (E.h : Int) ≤ y) : shape c.edges y x = 0 :=
  shape_below (W := box E) x (by show (256 * (E.h : Int) - 1) / 256 < y; omega) _ fun v hv => (h.fine v hv).box

theorem Spec.CmdOk.above {c : Cmd P} (h : CmdOk E c) {y : Int} (x : Int) (hy : y < c.y0 / 256) : shape c.edges y x = 0 := by
  refine shape_above x hy _ fun v hv => ⟨h.edges.down v hv, ?_⟩
  cases hp : v.pts with
  | nil => exact absurd hp (h.edges.some v hv)
  | cons p l =>
    have := h.edges.box v hv p (by rw [hp]; simp)
    exact ⟨p, l, rfl, by omega⟩

theorem Env.bh_pos (E : Env) : 0 < E.bh := Nat.pow_pos (by decide)

/-- A band that exists starts in the image. -/
theorem Env.band_lt (E : Env) {id : Nat} (h : id < E.bands) : id * E.bh < E.h := by
  have hp := E.bh_pos
  have h1 : (id + 1) * E.bh ≤ E.h + E.bh - 1 := (Nat.le_div_iff_mul_le hp).1 h
  rw [Nat.succ_mul] at h1
  omega

/-- Painted scanlines are those of the specification. -/
theorem painted_iff {c : Cmd P} {y : Nat} {row row' : List P} :
    Painted (c.cfg E) c.comp (shape c.edges) y row row' ↔ row' = paintRow c y row := by
  constructor
  · rintro ⟨h1, h2⟩
    refine List.ext_getElem? fun x => ?_
    by_cases hx : x < row.length
    · rw [h2 x hx, paintRow, List.getElem?_mapIdx, List.getElem?_eq_getElem hx]
      rfl
    · rw [List.getElem?_eq_none (by omega), List.getElem?_eq_none (by simp [paintRow]; omega)]
  · rintro rfl
    refine ⟨by simp [paintRow], fun x hx => ?_⟩
    rw [paintRow, List.getElem?_mapIdx, List.getElem?_eq_getElem hx]
    rfl

/-- The image has the right size. -/
structure ImgOk (E : Env) (img : List (List P)) : Prop where
  height : img.length = E.h
  width : ∀ row ∈ img, row.length = E.w

/-- The scanlines of band `id` are painted by `f`, the others are not touched. -/
def BandImg (E : Env) (id : Nat) (f : Nat → List P → List P) (img img' : List (List P)) : Prop :=
  img'.length = img.length ∧ ∀ (y : Nat) row, img[y]? = some row → img'[y]? = some (if y / E.bh = id then f y row else row)

theorem BandImg.ok {id : Nat} {f : Nat → List P → List P} {img img' : List (List P)} (h : BandImg E id f img img') (hi : ImgOk E img)
    (hf : ∀ y row, (f y row).length = row.length) : ImgOk E img' := by
  refine ⟨by rw [h.1, hi.height], fun row hrow => ?_⟩
  obtain ⟨y, hy1, hy2⟩ := List.getElem_of_mem hrow
  have hlen := h.1
  have e := h.2 y img[y] (List.getElem?_eq_getElem (by omega))
  rw [List.getElem?_eq_getElem hy1, hy2] at e
  have e := Option.some.inj e
  rw [e]
  have hw := hi.width img[y] (List.getElem_mem _)
  split
  · rw [hf, hw]
  · exact hw

theorem BandImg.trans {id : Nat} {f g : Nat → List P → List P} {a b c : List (List P)} (h : BandImg E id f a b) (h' : BandImg E id g b c) :
    BandImg E id (fun y row => g y (f y row)) a c := by
  refine ⟨by rw [h'.1, h.1], fun y row hr => ?_⟩
  rw [h'.2 y _ (h.2 y row hr)]
  split <;> rfl

theorem BandImg.refl {id : Nat} (img : List (List P)) : BandImg E id (fun _ row => row) img img :=
  ⟨rfl, fun y row hr => by rw [hr]; simp⟩

theorem mem_band (E : Env) (y id : Nat) : y / E.bh = id ↔ id * E.bh ≤ y ∧ y < (id + 1) * E.bh := by
  have hp := E.bh_pos
  constructor
  · rintro rfl
    exact ⟨Nat.div_mul_le_self _ _, by rw [← Nat.div_lt_iff_lt_mul hp]; omega⟩
  · rintro ⟨h1, h2⟩
    exact Nat.div_eq_of_lt_le h1 h2

/-- Nothing is painted where nothing is covered. -/
theorem band_zero {c : Cmd P} (hc : CmdOk E c) {id : Nat} (img : List (List P))
    (h : ∀ y x : Nat, y < (id + 1) * E.bh → id * E.bh ≤ y → shape c.edges y x = 0) : BandImg E id (paintRow c) img img := by
  refine ⟨rfl, fun y row hr => ?_⟩
  rw [hr]
  by_cases cy : y / E.bh = id
  · rw [if_pos cy]
    have := (mem_band E y id).1 cy
    exact congrArg some (painted_iff.1 (painted_zero (F := c.cfg E) hc.good fun x _ => h y x this.2 this.1))
  · rw [if_neg cy]

/-- What a worker knows of a command when all its bands above scanline `k` are done. -/
structure StOk (E : Env) (c : Cmd P) (k : Nat) (s : CmdSt) : Prop where
  slot : s.pending = true → c.y0 < 256 * k → ∃ sl, s.slot = some sl ∧ SlotOk (box E) c.edges k sl
  done : s.pending = false → ∀ y x : Int, (k : Int) ≤ y → shape c.edges y x = 0

theorem drawCmd_ok {c : Cmd P} (hc : CmdOk E c) {id k : Nat} (hid : id < E.bands) (hk : k ≤ id * E.bh) {s : Slot}
    (hs : SlotOk (box E) c.edges k s) {b : Bufs} (hb : Clean E.w E.bh b) {img : List (List P)} (hi : ImgOk E img) :
    ∃ s' b' img', drawCmd E c id s b img = some (s', b', img') ∧ StOk E c ((id + 1) * E.bh) s' ∧ Clean E.w E.bh b' ∧
      BandImg E id (paintRow c) img img' := by
  have hp := E.bh_pos
  have hlt := E.band_lt hid
  have hsucc : (id + 1) * E.bh = id * E.bh + E.bh := Nat.succ_mul _ _
  have D := bandEdges_does (W := box E) (es := c.edges) (t := (id * E.bh : Nat)) (e := (((id + 1) * E.bh : Nat) : Int) - 1)
    (H := 256 * E.bh) (by omega) (id := id) (by push_cast; ring) (by omega) hc.fine hc.edges.sorted (k := k) (by omega) hs
  unfold drawCmd
  simp only []
  generalize bandEdges ((id * E.bh : Nat) : Int) ((((id + 1) * E.bh : Nat) : Int) - 1) s = res at D
  rw [hsucc] at D ⊢
  generalize hM : id * E.bh = M at *
  obtain ⟨b1, w1, w2⟩ := writes_ok (w := E.w) (bh := E.bh) res.2 [] _ (clean_holds E.o M (2 ^ 32 - 1) hb)
    (fit_of (W := box E) rfl D.log D.rows (by omega))
  rw [List.nil_append] at w2
  rw [w1]
  simp only [Option.bind_eq_bind, Option.bind_some]
  have hWy : ((box E).y - 1) / 256 = (E.h : Int) - 1 := by
    show (256 * (E.h : Int) - 1) / 256 = _
    omega
  have hrows := D.rows
  rw [hWy] at hrows
  have hbl := w2.bitsLen
  have hcl := w2.cellsLen
  rw [fillBand_eq (c.cfg E) c.comp M E.bh b1 img (by rw [hi.height]; omega) (by omega) (by omega) (by
    intro i row hge hrow
    rw [hi.height] at hge
    refine (w2.bits i row hrow).clean fun a b' hm => ?_
    have := hrows.2 _ _ _ hm
    omega)]
  rw [hi.height]
  obtain ⟨b', img', f1, f2, f3, f4⟩ := fillBand_ok (F := c.cfg E) (C := c.comp) (W := box E) (off := M) (n := min E.bh (E.h - M))
    (log := res.2) (b := b1) (img := img) hc.good hc.rule hc.alpha rfl w2 D.log (hrows.mono (Int.le_refl _) (by omega))
    (fun y x hx => by
      rw [D.draws]
      split
      · exact hc.right hx
      · rfl)
    (fun y x => by
      rw [D.draws]
      split
      · exact hc.range y x
      · omega)
    (Nat.min_le_left _ _) (by rw [hi.height]; omega) hi.width
  rw [f1]
  simp only [Option.bind_some]
  refine ⟨_, _, _, rfl, ⟨fun _ _ => ⟨res.1, rfl, ?_⟩, fun hd y x hy => ?_⟩, f2, f3, fun y row hrow => ?_⟩
  · have := D.next
    rw [show ((M + E.bh : Nat) : Int) - 1 + 1 = ((M + E.bh : Nat) : Int) by omega] at this
    exact this
  · simp only [Bool.not_eq_false', Bool.and_eq_true, List.isEmpty_iff] at hd
    exact slot_done D.next hd.1 hd.2 x (by omega)
  · obtain ⟨row', r1, r2⟩ := f4 y row hrow
    have hy := (List.getElem?_eq_some_iff.1 hrow).1
    rw [hi.height] at hy
    have hb := mem_band E y id
    rw [hM, hsucc] at hb
    rw [r1]
    by_cases cy : y / E.bh = id
    · rw [if_pos cy]
      have := hb.1 cy
      rw [if_pos (by omega)] at r2
      exact congrArg some (painted_iff.1 (r2.congr fun x => by
        simp only [D.draws]
        rw [if_pos (by omega)]))
    · rw [if_neg cy]
      rw [if_neg (by intro h; exact cy (hb.2 (by omega)))] at r2
      rw [r2]

/-- A command in a band that has been reached. -/
theorem fillCmd_ok {c : Cmd P} (hc : CmdOk E c) {id k : Nat} (hid : id < E.bands) (hk : k ≤ id * E.bh) {s : CmdSt}
    (hp : s.pending = true) (hs : StOk E c k s) {b : Bufs} (hb : Clean E.w E.bh b) {img : List (List P)} (hi : ImgOk E img) :
    ∃ s' b' img', fillCmd E c id (256 * (k : Int) - 1) s.slot b img = some (s', b', img') ∧ StOk E c ((id + 1) * E.bh) s' ∧
      Clean E.w E.bh b' ∧ BandImg E id (paintRow c) img img' := by
  have h0 : c.y0 ≥ 256 * ((id + 1) * E.bh) → BandImg E id (paintRow c) img img := fun h =>
    band_zero hc img fun y x h1 h2 => hc.above x (by omega)
  unfold fillCmd
  by_cases c1 : 256 * (k : Int) - 1 < c.y0
  · rw [if_pos c1]
    simp only []
    by_cases c2 : c.edges.isEmpty = true
    · rw [if_pos c2]
      rw [List.isEmpty_iff] at c2
      have hz : ∀ y x, shape c.edges y x = 0 := fun y x => by rw [c2]; rfl
      exact ⟨_, _, _, rfl, ⟨by simp, fun _ y x _ => hz y x⟩, hb, band_zero hc img fun y x _ _ => hz y x⟩
    · rw [if_neg c2]
      by_cases c3 : c.y0 ≥ 256 * ((id + 1) * E.bh)
      · rw [if_pos c3]
        exact ⟨_, _, _, rfl, ⟨fun _ h => by omega, by simp⟩, hb, h0 c3⟩
      · rw [if_neg c3]
        exact drawCmd_ok hc hid hk (slot_start _ _ _) hb hi
  · rw [if_neg c1]
    obtain ⟨sl, e1, e2⟩ := hs.slot hp (by omega)
    rw [e1]
    simp only [Option.bind_eq_bind, Option.bind_some]
    by_cases c3 : c.y0 ≥ 256 * ((id + 1) * E.bh)
    · rw [if_pos c3]
      exact ⟨_, _, _, rfl, ⟨fun _ h => by omega, by simp⟩, hb, h0 c3⟩
    · rw [if_neg c3]
      exact drawCmd_ok hc hid hk e2 hb hi

/-! ## Quantized coordinates -/

theorem shift_log (E : Env) : E.log ≤ E.shift := Nat.le_max_left _ _

theorem shift_size (E : Env) : E.bh * E.bands < 2 ^ (E.shift + 8) := by
  have h1 : E.bh * E.bands < 2 ^ (Nat.log2 (E.bh * E.bands) + 1) := Nat.lt_log2_self
  refine Nat.lt_of_lt_of_le h1 (Nat.pow_le_pow_right (by decide) ?_)
  unfold Env.shift
  omega

/-- A command that is not tried in a band starts below it. -/
theorem quantized {c : Cmd P} (hc : CmdOk E c) {id : Nat} (hid : id < E.bands) (h : E.q id < c.q E) : 256 * ((id + 1) * E.bh) ≤ c.y0 := by
  have hsz := shift_size E
  have hlog := shift_log E
  have hp := E.bh_pos
  have hend : (id + 1) * E.bh ≤ E.bh * E.bands := by
    rw [Nat.mul_comm E.bh]
    exact Nat.mul_le_mul_right _ hid
  have hh : E.h ≤ E.bh * E.bands := by
    unfold Env.bands
    have h1 : E.h + E.bh - 1 < E.bh * ((E.h + E.bh - 1) / E.bh + 1) := Nat.lt_mul_div_succ _ hp
    have h2 : E.bh * ((E.h + E.bh - 1) / E.bh + 1) = E.bh * ((E.h + E.bh - 1) / 2 ^ E.log) + E.bh := by
      rw [Nat.mul_add, Nat.mul_one]; rfl
    omega
  have hsucc : (id + 1) * E.bh = id * E.bh + E.bh := Nat.succ_mul _ _
  have hpw : 2 ^ (E.shift + 8) = 2 ^ E.shift * 256 := Nat.pow_add _ _ _
  -- neither number is cut to eight bits
  have q1 : E.q id = id * E.bh / 2 ^ E.shift := by
    unfold Env.q
    refine Nat.mod_eq_of_lt ((Nat.div_lt_iff_lt_mul (Nat.pow_pos (by decide))).2 ?_)
    omega
  have hin := hc.inside
  have q2 : c.q E = c.y0 / 2 ^ (E.shift + 8) := by
    unfold Cmd.q
    refine Nat.mod_eq_of_lt ((Nat.div_lt_iff_lt_mul (Nat.pow_pos (by decide))).2 ?_)
    rw [Nat.mul_comm]
    have : 256 * E.h ≤ 2 ^ (E.shift + 8) * 256 := by
      rw [Nat.mul_comm]
      exact Nat.mul_le_mul_right _ (by omega)
    omega
  rw [q1, q2] at h
  -- the quantum is a multiple of the band height
  obtain ⟨m, hm⟩ : ∃ m, 2 ^ E.shift = m * E.bh := ⟨2 ^ (E.shift - E.log), by
    rw [Env.bh, ← Nat.pow_add, Nat.sub_add_cancel hlog]⟩
  have h1 : (id * E.bh / 2 ^ E.shift + 1) * 2 ^ (E.shift + 8) ≤ c.y0 :=
    (Nat.le_div_iff_mul_le (Nat.pow_pos (by decide))).1 h
  have hmpos : 0 < m := by
    rcases Nat.eq_zero_or_pos m with h | h
    · rw [h, Nat.zero_mul] at hm
      have : 0 < 2 ^ E.shift := Nat.pow_pos (by decide)
      omega
    · exact h
  have h2 : id * E.bh / 2 ^ E.shift = id / m := by
    rw [hm]
    exact Nat.mul_div_mul_right _ _ hp
  have h3 : id + 1 ≤ (id / m + 1) * m := by
    have := Nat.lt_div_mul_add (a := id) hmpos
    rw [Nat.succ_mul]
    omega
  rw [h2, hpw, hm] at h1
  have h4 : 256 * ((id + 1) * E.bh) ≤ 256 * ((id / m + 1) * m * E.bh) := Nat.mul_le_mul_left _ (Nat.mul_le_mul_right _ h3)
  have h5 : 256 * ((id / m + 1) * m * E.bh) = (id / m + 1) * (m * E.bh * 256) := by ring
  omega

/-! ## All commands of a band -/

/-- The scanlines of a band after some commands. -/
def paintAll (cmds : List (Cmd P)) (y : Nat) (row : List P) : List P := cmds.foldl (fun row c => paintRow c y row) row

theorem paintRow_length (c : Cmd P) (y : Nat) (row : List P) : (paintRow c y row).length = row.length := by simp [paintRow]

theorem paintAll_length (cmds : List (Cmd P)) (y : Nat) : ∀ (row : List P), (paintAll cmds y row).length = row.length := by
  induction cmds with
  | nil => intro row; rfl
  | cons c cs ih => intro row; exact (ih _).trans (paintRow_length c y row)

theorem processBand_ok {id k : Nat} (hid : id < E.bands) (hk : k ≤ id * E.bh) : ∀ (cmds : List (Cmd P)) (ss : List CmdSt) (b : Bufs)
    (img : List (List P)), (∀ c ∈ cmds, CmdOk E c) → List.Forall₂ (fun c s => StOk E c k s) cmds ss → Clean E.w E.bh b → ImgOk E img →
    ∃ ss' b' img', processBand E id (256 * (k : Int) - 1) cmds ss b img = some (ss', b', img') ∧
      List.Forall₂ (fun c s => StOk E c ((id + 1) * E.bh) s) cmds ss' ∧ Clean E.w E.bh b' ∧ BandImg E id (paintAll cmds) img img' := by
  intro cmds
  induction cmds with
  | nil =>
    intro ss b img _ h hb hi
    cases h
    exact ⟨_, _, _, rfl, .nil, hb, BandImg.refl img⟩
  | cons c cs ih =>
    intro ss b img hok h hb hi
    cases h with
    | @cons _ s _ ss h1 h2 =>
    have hc := hok c (by simp)
    have hsucc : (id + 1) * E.bh = id * E.bh + E.bh := Nat.succ_mul _ _
    have one : ∃ s' b' img', tryCmd E c id (256 * (k : Int) - 1) s b img = some (s', b', img') ∧ StOk E c ((id + 1) * E.bh) s' ∧ Clean E.w E.bh b' ∧
        BandImg E id (paintRow c) img img' := by
      unfold tryCmd
      by_cases c1 : s.pending = true ∧ E.q id ≥ c.q E
      · rw [if_pos c1]
        exact fillCmd_ok hc hid hk c1.1 h1 hb hi
      · rw [if_neg c1]
        by_cases c2 : s.pending = true
        · have hq := quantized hc hid (by
            by_contra hcon
            exact c1 ⟨c2, by omega⟩)
          exact ⟨_, _, _, rfl, ⟨fun _ h => by omega, fun h => by rw [c2] at h; cases h⟩, hb,
            band_zero hc img fun y x a1 a2 => hc.above x (by omega)⟩
        · have hz := h1.done (by simpa using c2)
          exact ⟨_, _, _, rfl, ⟨fun h => absurd h c2, fun _ y x hy => hz y x (by omega)⟩, hb,
            band_zero hc img fun y x a1 a2 => hz y x (by omega)⟩
    obtain ⟨s', b1, img1, e1, e2, e3, e4⟩ := one
    obtain ⟨ss', b', img', g1, g2, g3, g4⟩ := ih ss b1 img1 (fun c hc => hok c (List.mem_cons_of_mem _ hc)) h2 e3
      (e4.ok hi (paintRow_length c))
    refine ⟨s' :: ss', b', img', ?_, .cons e2 g2, g3, e4.trans g4⟩
    simp only [processBand, e1, g1, Option.bind_eq_bind, Option.bind_some]

end Blend2D.Async
