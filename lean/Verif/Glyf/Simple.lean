import Verif.Glyf.Decode
/-! Simple glyphs are decoded to the outline they describe: the whole glyph. -/
namespace Blend2D.Glyf
open Blend2D.Kern (u8 u16 u32 i16)
open Spec (Point Flags Deltas points Closed)

theorem u16_be16 {g : List UInt8} {p n : Nat} {r : List UInt8} (h : g.drop p = Spec.be16 n ++ r) (hn : n < 65536) :
    u16 g p = some n ∧ g.drop (p + 2) = r := by
  obtain ⟨h1, h2⟩ := u16_drop h
  refine ⟨?_, h2⟩
  rw [h1]
  simp only [UInt8.toNat_ofNat']
  congr 1
  omega

theorem ends_length (k : Nat) (cs : List (List Point)) : (Spec.ends k cs).length = 2 * cs.length := by
  induction cs generalizing k with
  | nil => rfl
  | cons c cs ih => simp only [Spec.ends, List.length_append, ih, List.length_cons, Spec.be16, List.length_nil]; omega

theorem last_end {g : List UInt8} (cs : List (List Point)) (k ca : Nat) (r : List UInt8) (hne : cs ≠ [])
    (hg : g.drop ca = Spec.ends k cs ++ r) (hl : k + cs.flatten.length ≤ 65536) :
    u16 g (ca + (cs.length - 1) * 2) = some (k + cs.flatten.length - 1) := by
  induction cs generalizing k ca with
  | nil => exact absurd rfl hne
  | cons c cs ih =>
    rw [Spec.ends, List.append_assoc] at hg
    simp only [List.flatten_cons, List.length_append] at hl ⊢
    obtain ⟨h1, h2⟩ := u16_be16 hg (by omega)
    cases cs with
    | nil => simpa using h1
    | cons c2 cs =>
      have := ih (k + c.length) (ca + 2) (by simp) h2 (by omega)
      simp only [List.length_cons] at this ⊢
      rw [show ca + (cs.length + 1 + 1 - 1) * 2 = ca + 2 + (cs.length + 1 - 1) * 2 by omega, this]
      congr 1
      omega

theorem contours_fn {c : Ctx} (cs : List (List Point)) (ca : Nat) (v : VSt) (a : Point) (r : List UInt8)
    (hg : c.glyf.drop ca = Spec.ends v.i cs ++ r) (h : At c v a cs.flatten) (hne : ∀ l ∈ cs, l ≠ [])
    (hcl : ∀ l ∈ cs, Closed l) (ht : v.i + cs.flatten.length ≤ c.tt) (htt : c.tt ≤ 65536) :
    Fn (contours c ca cs.length v) (fun w => w.acc = v.acc ++ Spec.outline c.m cs) := by
  induction cs generalizing ca v a with
  | nil => simp [contours, Spec.outline, Fn]
  | cons l cs ih =>
    rw [Spec.ends, List.append_assoc] at hg
    simp only [List.flatten_cons, List.length_append] at ht
    have hl := hne l (by simp)
    cases l with
    | nil => exact absurd rfl hl
    | cons q qs =>
      simp only [List.length_cons] at ht hg
      obtain ⟨h1, h2⟩ := u16_be16 hg (by omega)
      rw [List.length_cons, contours]
      refine (fn_get _).bind fun e he => ?_
      rw [h1] at he
      have he := Option.some.inj he
      refine (contour_fn (q := q) (qs := qs) (rest := cs.flatten) (by simpa using h) (by omega) (by omega)
        (hcl _ (by simp))).bind fun w hw => ?_
      obtain ⟨w1, w2, w3⟩ := hw
      have hwi : w.i = v.i + (qs.length + 1) := by omega
      refine (ih (ca + 2) w _ (by rw [hwi]; exact h2) w1 (fun l hl => hne l (by simp [hl]))
        (fun l hl => hcl l (by simp [hl])) (by omega)).mono fun u hu => ?_
      rw [hu, w3, Spec.outline, Spec.outline, List.flatMap_cons, List.append_assoc]

theorem deltas_x {fs : List Nat} {b : List UInt8} {ds : List Int} (h : Deltas 1 4 fs b ds) (p : Nat) (hp : p < 2)
    (hlt : ∀ f ∈ fs, f < 256) : wsum xsz (marks p fs) = b.length := by
  induction h generalizing p with
  | nil => rfl
  | @byte f fs _ _ _ h1 _ ih =>
    have hb := bits_table p hp f (hlt f (by simp))
    have := ih (f % 2) (by omega) (fun g hg => hlt g (by simp [hg]))
    simp only [marks, wsum, List.map_cons, List.sum_cons, xsz_eq, hb.2.1, h1, List.length_cons] at this ⊢
    simp only [if_true] at *
    omega
  | @none f fs _ _ h1 h2 _ ih =>
    have hb := bits_table p hp f (hlt f (by simp))
    have := ih (f % 2) (by omega) (fun g hg => hlt g (by simp [hg]))
    simp only [marks, wsum, List.map_cons, List.sum_cons, xsz_eq, hb.2.1, hb.2.2.1, h1, h2] at this ⊢
    simp only [Bool.false_eq_true, if_false, if_true] at *
    omega
  | @word f fs _ _ _ _ h1 h2 _ ih =>
    have hb := bits_table p hp f (hlt f (by simp))
    have := ih (f % 2) (by omega) (fun g hg => hlt g (by simp [hg]))
    simp only [marks, wsum, List.map_cons, List.sum_cons, xsz_eq, hb.2.1, hb.2.2.1, h1, h2, List.length_cons] at this ⊢
    simp only [Bool.false_eq_true, if_false] at *
    omega

theorem deltas_y {fs : List Nat} {b : List UInt8} {ds : List Int} (h : Deltas 2 5 fs b ds) (p : Nat) (hp : p < 2)
    (hlt : ∀ f ∈ fs, f < 256) : wsum ysz (marks p fs) = b.length := by
  induction h generalizing p with
  | nil => rfl
  | @byte f fs _ _ _ h1 _ ih =>
    have hb := bits_table p hp f (hlt f (by simp))
    have := ih (f % 2) (by omega) (fun g hg => hlt g (by simp [hg]))
    simp only [marks, wsum, List.map_cons, List.sum_cons, ysz_eq, hb.2.2.2.1, h1, List.length_cons] at this ⊢
    simp only [if_true] at *
    omega
  | @none f fs _ _ h1 h2 _ ih =>
    have hb := bits_table p hp f (hlt f (by simp))
    have := ih (f % 2) (by omega) (fun g hg => hlt g (by simp [hg]))
    simp only [marks, wsum, List.map_cons, List.sum_cons, ysz_eq, hb.2.2.2.1, hb.2.2.2.2.1, h1, h2] at this ⊢
    simp only [Bool.false_eq_true, if_false, if_true] at *
    omega
  | @word f fs _ _ _ _ h1 h2 _ ih =>
    have hb := bits_table p hp f (hlt f (by simp))
    have := ih (f % 2) (by omega) (fun g hg => hlt g (by simp [hg]))
    simp only [marks, wsum, List.map_cons, List.sum_cons, ysz_eq, hb.2.2.2.1, hb.2.2.2.2.1, h1, h2, List.length_cons] at this ⊢
    simp only [Bool.false_eq_true, if_false] at *
    omega

theorem deltas_length {s t : Nat} {fs : List Nat} {b : List UInt8} {ds : List Int} (h : Deltas s t fs b ds) :
    ds.length = fs.length := by
  induction h <;> simp [*]

theorem points_length (x y : Int) (fs : List Nat) (dxs dys : List Int) (h1 : dxs.length = fs.length)
    (h2 : dys.length = fs.length) : (points x y fs dxs dys).length = fs.length := by
  induction fs generalizing x y dxs dys with
  | nil => rfl
  | cons f fs ih =>
    cases dxs with
    | nil => simp at h1
    | cons dx dxs =>
      cases dys with
      | nil => simp at h2
      | cons dy dys =>
        simp only [points, List.length_cons] at h1 h2 ⊢
        rw [ih _ _ _ _ (by omega) (by omega)]

theorem drop_of_append {g x y : List UInt8} {p : Nat} (h : g.drop p = x ++ y) : g.drop (p + x.length) = y := by
  rw [← List.drop_drop, h, List.drop_left]

theorem simpleBody_fn {g : List UInt8} {m : Mat} {ca p gEnd : Nat} {cs : List (List Point)}
    {fb xb yb r pad : List UInt8} {fs : List Nat} {dxs dys : List Int}
    (h1 : ca + 2 * cs.length ≤ p) (h3 : gEnd ≤ g.length)
    (hca : g.drop ca = Spec.ends 0 cs ++ r) (hp : g.drop p = fb ++ (xb ++ (yb ++ pad)))
    (hE : p + fb.length + xb.length + yb.length ≤ gEnd)
    (hfb : Flags fb fs) (hx : Deltas 1 4 fs xb dxs) (hy : Deltas 2 5 fs yb dys)
    (hpts : cs.flatten = points 0 0 fs dxs dys) (hne : ∀ l ∈ cs, l ≠ []) (hcl : ∀ l ∈ cs, Closed l)
    (hfew : cs.flatten.length ≤ 32767) (htwo : 2 ≤ cs.flatten.length) :
    Fn (simpleBody g m ca cs.length p gEnd) (fun path => path = Spec.outline m cs) := by
  have hcs : cs ≠ [] := by rintro rfl; simp at htwo
  have hlast := last_end cs 0 ca r hcs hca (by omega)
  have hflen : fs.length = cs.flatten.length := by
    rw [hpts, points_length _ _ _ _ _ (deltas_length hx) (deltas_length hy)]
  have hlt := flags_lt hfb
  unfold simpleBody
  rw [hlast]
  show Fn (if 0 + cs.flatten.length - 1 + 1 ≤ 1 then _ else _) _
  rw [show 0 + cs.flatten.length - 1 + 1 = fs.length by omega, if_neg (by omega)]
  obtain ⟨s, hs, ⟨hi, hlen⟩, hsp, hsf⟩ := (flagLoop_inv (g := g) (gEnd := gEnd) (tt := fs.length) h3 fs.length
    { p := p, fs := [], f := 1, xy := 0, offc := 0 }
    ⟨by show p ≤ gEnd; omega, by show 1 < 256; decide, by simp, by simp [wsum], by simp [wsum]⟩
    (by simp only [List.length_nil]; omega) (by simp)).fn
    (flagLoop_fn hfb (xb ++ (yb ++ pad)) fs.length _ (by intro he; rw [he, List.length_nil] at hflen; omega) hp (by show p + _ ≤ gEnd; omega) (by simp))
  simp only [List.nil_append] at hsp hsf
  rw [hs]
  have hwx := deltas_x hx 1 (by omega) hlt
  have hwy := deltas_y hy 1 (by omega) hlt
  have hsf' : s.fs = marks 1 fs := hsf
  have hxy := hi.xy
  rw [hsf', hwx, hwy] at hxy
  have hxlt : xb.length < 65536 := by
    have := wsum_le xsz 2 (marks 1 fs) xsz_le
    rw [hwx, marks_length] at this
    omega
  have e1 : s.xy % 65536 = xb.length := by omega
  have e2 : s.xy / 65536 = yb.length := by omega
  show Fn (if s.xy % 65536 + s.xy / 65536 > gEnd - s.p then _ else _) _
  rw [e1, e2, if_neg (by omega)]
  have hdx : g.drop s.p = xb ++ (yb ++ pad) := by rw [hsp]; exact drop_of_append hp
  have hdy : g.drop (s.p + xb.length) = yb ++ pad := drop_of_append hdx
  refine (contours_fn cs ca _ ⟨0, 0, true⟩ r hca ⟨fs, dxs, dys, xb, yb, _, _, hpts, ?_, hlt, hdx, hx, hdy, hy, ?_⟩ hne
    hcl ?_ ?_).bind fun v hv => ?_
  · exact hsf'
  · simp [img, Spec.apply]
  · simp only; omega
  · simp only; omega
  · show v.acc = _
    rw [hv]
    rfl

/-- A glyph at `a` whose bytes describe the contours `cs`. -/
theorem simple_spec {g : List UInt8} {m : Mat} {a size : Nat} {cs : List (List Point)} (h : a + size ≤ g.length)
    (hd : Spec.Describes ((g.drop a).take size) cs) (hcl : ∀ l ∈ cs, Closed l)
    (hfew : cs.flatten.length ≤ 32767) (htwo : 2 ≤ cs.flatten.length) :
    i16 g a = some (cs.length : Int) ∧ 10 ≤ size ∧ simple g m a size cs.length = .ok (Spec.outline m cs) := by
  obtain ⟨bbox, code, fb, xb, yb, pad, fs, dxs, dys, hd, hbb, hcode, hc0, hc1, hne, hfb, hx, hy, hpts⟩ := hd
  have hlen := congrArg List.length hd
  have hle := ends_length 0 cs
  simp only [List.length_take, List.length_drop, List.length_append, hbb, hle, Spec.be16, List.length_cons,
    List.length_nil] at hlen
  have hsize : size = 12 + 2 * cs.length + code.length + fb.length + xb.length + yb.length + pad.length := by omega
  clear hlen
  have hg : g.drop a = Spec.be16 cs.length ++ (bbox ++ (Spec.ends 0 cs ++ (Spec.be16 code.length ++ (code ++
      (fb ++ (xb ++ (yb ++ (pad ++ g.drop (a + size))))))))) := by
    conv_lhs => rw [← List.take_append_drop size (g.drop a), hd, List.drop_drop]
    simp only [List.append_assoc]
  obtain ⟨e1, e2⟩ := u16_be16 hg (by omega)
  have e3 := drop_of_append e2
  rw [hbb] at e3
  have e4 := drop_of_append e3
  rw [hle] at e4
  obtain ⟨e5, e6⟩ := u16_be16 e4 hcode
  have e7 := drop_of_append e6
  have hi : i16 g a = some (cs.length : Int) := by
    simp only [i16, e1]
    show some (if cs.length < 32768 then (cs.length : Int) else _) = _
    rw [if_pos hc1]
  refine ⟨hi, by omega, ?_⟩
  have hlast := last_end cs 0 (a + 2 + 8) _ (by rintro rfl; simp at hc0) e3 (by omega)
  have hok : Ok (simple g m a size cs.length) (fun _ => True) := by
    refine simple_ok hc0 h fun e he => ?_
    have h2 : some e = some (0 + cs.flatten.length - 1) := he.symm.trans hlast
    have h3 := Option.some.inj h2
    omega
  have hfn : Fn (simple g m a size cs.length) (fun path => path = Spec.outline m cs) := by
    unfold simple
    rw [if_neg (by omega), show a + 10 + cs.length * 2 = a + 2 + 8 + 2 * cs.length by omega, e5]
    show Fn (if size - (12 + cs.length * 2) < code.length then _ else _) _
    rw [if_neg (by omega), show a + 10 = a + 2 + 8 by omega,
      show a + 12 + cs.length * 2 + code.length = a + 2 + 8 + 2 * cs.length + 2 + code.length by omega]
    exact simpleBody_fn (by omega) h e3 e7 (by omega) hfb hx hy hpts hne hcl hfew htwo
  obtain ⟨path, h1, -, h2⟩ := hok.fn hfn
  rw [h1, h2]

end Blend2D.Glyf
