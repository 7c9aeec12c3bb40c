import Verif.Glyf.Outline
import Verif.Glyf.Figure
import Mathlib.Tactic.Ring
/-! Simple glyphs are decoded to the outline they describe. -/
namespace Blend2D.Glyf
open Blend2D.Kern (u8 u16 u32 i16)
open Spec (Point Flags Deltas points Closed)

/-- No error other than undefined behaviour, and `P` of what is returned. -/
def Fn {α : Type} (r : Except Err α) (P : α → Prop) : Prop :=
  match r with
  | .ok a => P a
  | .error e => e = .ub

theorem Fn.bind {α β : Type} {r : Except Err α} {f : α → Except Err β} {P : α → Prop} {Q : β → Prop}
    (h : Fn r P) (k : ∀ a, P a → Fn (f a) Q) : Fn (r >>= f) Q := by
  cases r with
  | error e => exact h
  | ok a => exact k a h

theorem Fn.mono {α : Type} {r : Except Err α} {P Q : α → Prop} (h : Fn r P) (k : ∀ a, P a → Q a) : Fn r Q := by
  cases r with
  | error e => exact h
  | ok a => exact k a h

/-- Both together: there is a result. -/
theorem Ok.fn {α : Type} {r : Except Err α} {P Q : α → Prop} (h : Ok r P) (k : Fn r Q) : ∃ a, r = .ok a ∧ P a ∧ Q a := by
  cases r with
  | error e => exact absurd k h
  | ok a => exact ⟨a, rfl, h, k⟩

theorem fn_get {α : Type} (o : Option α) : Fn (get o) (fun a => o = some a) := by
  cases o <;> exact rfl

theorem fn_add (c : Ctx) (v : VSt) (x : Vtx) : Fn (add c v x) (fun w => w = { v with acc := v.acc ++ [x] }) := by
  unfold add
  split <;> exact rfl

theorem u8_drop {g : List UInt8} {p : Nat} {b : UInt8} {r : List UInt8} (h : g.drop p = b :: r) :
    u8 g p = some b.toNat ∧ g.drop (p + 1) = r ∧ p < g.length := by
  have hl : p < g.length := by
    have := congrArg List.length h
    simp at this
    omega
  rw [List.drop_eq_getElem_cons hl] at h
  injection h with h1 h2
  exact ⟨by rw [Kern.u8_some hl, h1], h2, hl⟩

theorem i16_drop {g : List UInt8} {p : Nat} {a b : UInt8} {r : List UInt8} (h : g.drop p = a :: b :: r) :
    i16 g p = some (Spec.signed (a.toNat * 256 + b.toNat)) ∧ g.drop (p + 2) = r := by
  obtain ⟨h1, h2, -⟩ := u8_drop h
  obtain ⟨h3, h4, -⟩ := u8_drop h2
  refine ⟨?_, h4⟩
  simp only [i16, u16, h1, h3]
  rfl

theorem u16_drop {g : List UInt8} {p : Nat} {a b : UInt8} {r : List UInt8} (h : g.drop p = a :: b :: r) :
    u16 g p = some (a.toNat * 256 + b.toNat) ∧ g.drop (p + 2) = r := by
  obtain ⟨h1, h2, -⟩ := u8_drop h
  obtain ⟨h3, h4, -⟩ := u8_drop h2
  refine ⟨?_, h4⟩
  simp only [u16, h1, h3]
  rfl

/-! ## Flags -/

/-- The flags as they are stored: bit 7 is bit 0 of the point in front. -/
def marks (p : Nat) : List Nat → List Nat
  | [] => []
  | b :: l => (b % 64 + 128 * p) :: marks (b % 2) l

theorem marks_length (p : Nat) (l : List Nat) : (marks p l).length = l.length := by
  induction l generalizing p with
  | nil => rfl
  | cons b l ih => simp [marks, ih]

theorem marks_rep (p b n : Nat) (l : List Nat) : marks p (List.replicate (n + 1) b ++ l) =
    (b % 64 + 128 * p) :: (List.replicate n (b % 64 + 128 * (b % 2)) ++ marks (b % 2) l) := by
  induction n generalizing p with
  | zero => rfl
  | succ n ih =>
    rw [List.replicate_succ, List.cons_append, marks, ih (b % 2)]
    rfl

theorem and63 (b : Nat) : b &&& 0x3F = b % 64 := Nat.and_two_pow_sub_one_eq_mod b 6

theorem nextFlag_eq (f b : Nat) : nextFlag f (b &&& 0x3F) = b % 64 + 128 * (f % 2) := by
  rw [nextFlag, and63, ← Nat.shiftLeft_add_eq_or_of_lt (by omega : b % 64 < 2 ^ 7) f, Nat.shiftLeft_eq,
    show (0xFF : Nat) = 2 ^ 8 - 1 from rfl, Nat.and_two_pow_sub_one_eq_mod]
  omega

theorem bits_table : ∀ p < 2, ∀ b < 256,
    ((b % 64 + 128 * p) &&& 8 = 0 ↔ b.testBit 3 = false) ∧
    ((b % 64 + 128 * p) &&& 2 != 0) = b.testBit 1 ∧ ((b % 64 + 128 * p) &&& 16 != 0) = b.testBit 4 ∧
    ((b % 64 + 128 * p) &&& 4 != 0) = b.testBit 2 ∧ ((b % 64 + 128 * p) &&& 32 != 0) = b.testBit 5 ∧
    ((b % 64 + 128 * p) &&& 1 = 0 ↔ b.testBit 0 = false) ∧
    ((b % 64 + 128 * p) &&& 129 = 0 ↔ b.testBit 0 = false ∧ p = 0) ∧
    b % 2 = (if b.testBit 0 then 1 else 0) := by decide +kernel

theorem flags_lt {bs : List UInt8} {fs : List Nat} (h : Flags bs fs) : ∀ f ∈ fs, f < 256 := by
  induction h with
  | nil => intro f hf; simp at hf
  | one _ _ ih =>
    intro f hf
    rcases List.mem_cons.1 hf with rfl | hf
    · exact UInt8.toNat_lt _
    · exact ih f hf
  | rep _ _ ih =>
    intro f hf
    rcases List.mem_append.1 hf with hf | hf
    · rw [List.eq_of_mem_replicate hf]; exact UInt8.toNat_lt _
    · exact ih f hf

theorem flagFirst_fn {g : List UInt8} {gEnd tt : Nat} {s : FSt} {b : UInt8} {r : List UInt8}
    (hg : g.drop s.p = b :: r) (hp : s.p < gEnd) :
    Fn (flagFirst g gEnd tt s) (fun w => w.1 = b.toNat &&& 0x3F ∧ w.2.p = s.p + 1 ∧
      w.2.f = b.toNat % 64 + 128 * (s.f % 2) ∧ w.2.fs = s.fs ++ [b.toNat % 64 + 128 * (s.f % 2)]) := by
  unfold flagFirst
  rw [if_neg (by omega), (u8_drop hg).1]
  show Fn (if s.fs.length < tt then _ else _) _
  split
  · exact ⟨rfl, rfl, nextFlag_eq _ _, by simp only [nextFlag_eq]⟩
  · exact rfl

theorem flagRepeat_fn {g : List UInt8} {gEnd tt : Nat} {s : FSt} {b n : UInt8} {r : List UInt8}
    (hg : g.drop s.p = n :: r) (hp : s.p < gEnd) (hn : s.fs.length + n.toNat ≤ tt)
    (hf : s.f % 2 = b.toNat % 2) :
    Fn (flagRepeat g gEnd tt (b.toNat &&& 0x3F) s) (fun w => w.p = s.p + 1 ∧
      w.f = b.toNat % 64 + 128 * (b.toNat % 2) ∧
      w.fs = s.fs ++ List.replicate n.toNat (b.toNat % 64 + 128 * (b.toNat % 2))) := by
  unfold flagRepeat
  rw [if_neg (by omega), (u8_drop hg).1]
  show Fn (if n.toNat > tt - s.fs.length then _ else _) _
  rw [if_neg (by omega)]
  exact ⟨rfl, by simp only [nextFlag_eq, hf], by simp only [nextFlag_eq, hf]⟩

theorem flagLoop_fn {g : List UInt8} {gEnd tt : Nat} {fb : List UInt8} {fs : List Nat} (h : Flags fb fs)
    (rest : List UInt8) (fuel : Nat) (s : FSt) (hne : fs ≠ []) (hg : g.drop s.p = fb ++ rest)
    (hp : s.p + fb.length ≤ gEnd) (hl : s.fs.length + fs.length = tt) :
    Fn (flagLoop g gEnd tt fuel s) (fun w => w.p = s.p + fb.length ∧ w.fs = s.fs ++ marks (s.f % 2) fs) := by
  induction h generalizing s fuel with
  | nil => exact absurd rfl hne
  | @one b bs fs hb hfl ih =>
    cases fuel with
    | zero => exact rfl
    | succ fuel =>
      simp only [List.length_cons] at hp hl
      have h1 := flagFirst_fn (tt := tt) (gEnd := gEnd) hg (by omega)
      unfold flagLoop flagRound
      revert h1
      cases flagFirst g gEnd tt s with
      | error e => exact id
      | ok w =>
        obtain ⟨t, w⟩ := w
        rintro ⟨h1, h2, h3, h4⟩
        simp only at h1 h2 h3 h4 ⊢
        have hbit := bits_table (s.f % 2) (by omega) b.toNat b.toNat_lt
        rw [← h3] at hbit
        rw [if_pos (hbit.1.2 hb)]
        have hf2 : w.f % 2 = b.toNat % 2 := by rw [h3]; omega
        have hl4 : w.fs.length = s.fs.length + 1 := by rw [h4]; simp
        simp only
        split
        · refine (ih fuel w ?_ ?_ ?_ ?_).mono fun u hu => ?_
          · intro he; rw [he] at hl; simp at hl; omega
          · rw [h2]; exact (u8_drop hg).2.1
          · omega
          · omega
          · refine ⟨by rw [hu.1, h2]; simp only [List.length_cons]; omega, ?_⟩
            rw [hu.2, h4, hf2, marks]
            simp
        · have : fs = [] := List.length_eq_zero_iff.1 (by omega)
          subst this
          cases hfl with
          | nil => exact ⟨by rw [h2]; rfl, by rw [h4]; rfl⟩
  | @rep b n bs fs hb hfl ih =>
    cases fuel with
    | zero => exact rfl
    | succ fuel =>
      simp only [List.length_cons, List.length_append, List.length_replicate] at hp hl
      have h1 := flagFirst_fn (tt := tt) (gEnd := gEnd) hg (by omega)
      unfold flagLoop flagRound
      revert h1
      cases flagFirst g gEnd tt s with
      | error e => exact id
      | ok w =>
        obtain ⟨t, w⟩ := w
        rintro ⟨h1, h2, h3, h4⟩
        simp only at h1 h2 h3 h4 ⊢
        subst h1
        have hbit := bits_table (s.f % 2) (by omega) b.toNat b.toNat_lt
        rw [← h3] at hbit
        rw [if_neg (by rw [hbit.1, hb]; decide)]
        have hf2 : w.f % 2 = b.toNat % 2 := by rw [h3]; omega
        have hl4 : w.fs.length = s.fs.length + 1 := by rw [h4]; simp
        have hg2 := (u8_drop hg).2.1
        rw [← h2] at hg2
        have h5 := flagRepeat_fn (tt := tt) (gEnd := gEnd) hg2 (by omega) (by omega) hf2
        revert h5
        cases flagRepeat g gEnd tt (b.toNat &&& 0x3F) w with
        | error e => exact id
        | ok x =>
          rintro ⟨h5, h6, h7⟩
          simp only
          have hf3 : x.f % 2 = b.toNat % 2 := by rw [h6]; omega
          have hl7 : x.fs.length = w.fs.length + n.toNat := by rw [h7]; simp
          split
          · refine (ih fuel x ?_ ?_ ?_ ?_).mono fun u hu => ?_
            · intro he; rw [he] at hl; simp at hl; omega
            · rw [h5]; exact (u8_drop hg2).2.1
            · omega
            · omega
            · refine ⟨by rw [hu.1, h5, h2]; simp only [List.length_cons]; omega, ?_⟩
              rw [hu.2, h7, h4, hf3, marks_rep]
              simp
          · have : fs = [] := List.length_eq_zero_iff.1 (by omega)
            subst this
            cases hfl with
            | nil =>
              refine ⟨by rw [h5, h2]; rfl, ?_⟩
              rw [h7, h4, marks_rep]
              simp [marks]

/-! ## Points -/

/-- The image of a point. -/
def img (m : Mat) (p : Point) : Pt := (Spec.apply m p).1

/-- The decoder has decoded point `a`, and the points `ps` follow. -/
def At (c : Ctx) (v : VSt) (a : Point) (ps : List Point) : Prop :=
  ∃ (fs : List Nat) (dxs dys : List Int) (xb yb xt yt : List UInt8),
    ps = points a.x a.y fs dxs dys ∧ c.fs.drop v.i = marks (if a.on then 1 else 0) fs ∧ (∀ f ∈ fs, f < 256) ∧
    c.glyf.drop v.xp = xb ++ xt ∧ Deltas 1 4 fs xb dxs ∧ c.glyf.drop v.yp = yb ++ yt ∧ Deltas 2 5 fs yb dys ∧
    v.cur = img c.m a

theorem coord_fn {g : List UInt8} {p short same f d : Nat} {fs : List Nat} {ds : List Int} {b t : List UInt8} {dx : Int}
    (hg : g.drop p = b ++ t) (h : Deltas short same (f :: fs) b (dx :: ds)) :
    Fn (coord g p (f.testBit short) (f.testBit same)) (fun r => r.1 = dx ∧
      ∃ b', g.drop (p + r.2) = b' ++ t ∧ Deltas short same fs b' ds) := by
  unfold coord
  cases h with
  | byte h1 h2 =>
    obtain ⟨e1, e2, -⟩ := u8_drop hg
    rw [h1, if_pos rfl, e1]
    exact ⟨rfl, _, e2, h2⟩
  | none h1 h2 h3 =>
    rw [h1, h2]
    exact ⟨rfl, _, hg, h3⟩
  | word h1 h2 h3 =>
    obtain ⟨e1, e2⟩ := i16_drop hg
    rw [h1, h2, e1]
    exact ⟨rfl, _, e2, h3⟩

theorem fetch_fn {c : Ctx} {v : VSt} {a q : Point} {ps : List Point} (h : At c v a (q :: ps)) :
    Fn (fetch c v) (fun r => At c r.2.2 q ps ∧ r.2.2.acc = v.acc ∧ r.2.2.i = v.i + 1 ∧
      (r.1 &&& 1 = 0 ↔ q.on = false) ∧ (r.1 &&& 129 = 0 ↔ q.on = false ∧ a.on = false) ∧
      r.2.2.cur.sub r.2.1.half = Spec.mid (img c.m a) (img c.m q)) := by
  obtain ⟨fs, dxs, dys, xb, yb, xt, yt, hps, hfs, hlt, hx, hdx, hy, hdy, hcur⟩ := h
  cases fs with
  | nil => simp [points] at hps
  | cons f fs =>
    cases dxs with
    | nil => simp [points] at hps
    | cons dx dxs =>
      cases dys with
      | nil => simp [points] at hps
      | cons dy dys =>
        rw [points] at hps
        injection hps with hq hps
        have hf : c.fs[v.i]? = some (f % 64 + 128 * (if a.on then 1 else 0)) := by
          rw [marks] at hfs
          rw [← List.head?_drop, hfs]
          rfl
        have hfs' : c.fs.drop (v.i + 1) = marks (f % 2) fs := by
          rw [marks] at hfs
          rw [← List.drop_drop, hfs]
          rfl
        have hp2 : (if a.on then 1 else 0) < 2 := by cases a.on <;> decide
        obtain ⟨-, b1, b4, b2, b5, b0, b7, bm⟩ := bits_table _ hp2 f (hlt f (by simp))
        unfold fetch
        rw [hf]
        show Fn (coord _ _ _ _ >>= _) _
        rw [b1, b4, b2, b5]
        refine (coord_fn hx hdx (d := 0)).bind fun ⟨ex, nx⟩ hex => ?_
        refine (coord_fn hy hdy (d := 0)).bind fun ⟨ey, ny⟩ hey => ?_
        obtain ⟨hx1, xb', hx2, hx3⟩ := hex
        obtain ⟨hy1, yb', hy2, hy3⟩ := hey
        simp only at hx1 hy1 hx2 hy2
        subst hx1 hy1
        have hqx : q.x = a.x + ex := by rw [hq]
        have hqy : q.y = a.y + ey := by rw [hq]
        have hqo : q.on = f.testBit 0 := by rw [hq]
        refine ⟨⟨fs, dxs, dys, xb', yb', xt, yt, ?_, ?_, ?_, hx2, hx3, hy2, hy3, ?_⟩, rfl, rfl, ?_, ?_, ?_⟩
        · rw [hqx, hqy]; exact hps
        · rw [hqo, ← bm]; exact hfs'
        · exact fun g hg => hlt g (by simp [hg])
        · simp only [hcur, img, Spec.apply, Pt.add, hqx, hqy, Pt.mk.injEq]
          push_cast
          exact ⟨by ring, by ring⟩
        · rw [hqo]; exact b0
        · rw [hqo]
          refine b7.trans (and_congr_right fun _ => ?_)
          cases a.on <;> simp
        · simp only [hcur, img, Spec.apply, Pt.add, Pt.sub, Pt.half, Spec.mid, hqx, hqy, Pt.mk.injEq]
          push_cast
          exact ⟨by ring, by ring⟩

theorem addPoint_fn {c : Ctx} {f : Nat} {d : Pt} {v : VSt} {a q : Point} (hc : v.cur = img c.m q)
    (h1 : f &&& 1 = 0 ↔ q.on = false) (h2 : f &&& 129 = 0 ↔ q.on = false ∧ a.on = false)
    (h3 : v.cur.sub d.half = Spec.mid (img c.m a) (img c.m q)) :
    Fn (addPoint c f d v) (fun w => w = { v with acc := v.acc ++ (emit (img c.m a, a.on) [(img c.m q, q.on)]).map toV }) := by
  unfold addPoint
  split
  · rename_i hn
    refine (fn_add _ _ _).mono fun w hw => ?_
    rw [hw]
    have hno : ¬ ((!a.on && !q.on) = true) := by
      intro hh
      refine hn (h2.2 ?_)
      cases ha : a.on <;> cases hq : q.on <;> simp_all
    rw [emit, if_neg hno]
    cases hq : q.on
    · simp [h1.2 hq, toV, hc, emit]
    · have : ¬ f &&& 1 = 0 := fun h => by rw [h1.1 h] at hq; simp at hq
      simp only [if_neg this]
      simp [toV, hc, emit]
  · rename_i hn
    obtain ⟨hq, ha⟩ := h2.1 (by simpa using hn)
    refine (fn_add _ _ _).bind fun w hw => ?_
    refine (fn_add _ _ _).mono fun u hu => ?_
    rw [hu, hw]
    rw [hc] at h3
    simp [emit, hq, ha, toV, h3, hc]

theorem at_cur {c : Ctx} {v : VSt} {a : Point} {ps : List Point} (h : At c v a ps) : v.cur = img c.m a := by
  obtain ⟨_, _, _, _, _, _, _, _, _, _, _, _, _, _, h⟩ := h
  exact h

theorem at_acc {c : Ctx} {v : VSt} {a : Point} {ps : List Point} {l : List Vtx} (h : At c v a ps) :
    At c { v with acc := l } a ps := h

theorem inner_fn {c : Ctx} (qs rest : List Point) (f : Nat) (v : VSt) (a : Point) (h : At c v a (qs ++ rest))
    (hf : f &&& 1 = 0 ↔ a.on = false) :
    Fn (inner c qs.length f v) (fun r => At c r.2 (qs.getLastD a) rest ∧ r.2.i = v.i + qs.length ∧
      (r.1 &&& 1 = 0 ↔ (qs.getLastD a).on = false) ∧
      r.2.acc = v.acc ++ (emit (img c.m a, a.on) (qs.map (Spec.apply c.m))).map toV) := by
  induction qs generalizing f v a with
  | nil => exact ⟨h, rfl, hf, by simp [emit]⟩
  | cons q qs ih =>
    rw [List.length_cons, inner]
    refine (fetch_fn h).bind fun ⟨f1, d, w⟩ hw => ?_
    simp only at hw
    obtain ⟨w1, w2, w3, w4, w5, w6⟩ := hw
    refine (addPoint_fn (at_cur w1) w4 w5 w6).bind fun u hu => ?_
    subst hu
    refine (ih f1 _ q (at_acc w1) w4).mono fun r hr => ?_
    obtain ⟨r1, r2, r3, r4⟩ := hr
    rw [List.getLastD_cons]
    refine ⟨r1, by rw [r2]; simp only; omega, r3, ?_⟩
    rw [r4]
    simp only [w2, List.map_cons, emit, List.append_assoc, List.map_append, List.append_cancel_left_eq]
    rfl

theorem finish_on {c : Ctx} {p : Pt} {f : Nat} {v : VSt} {b : Bool} (h : f &&& 1 = 0 ↔ b = false) :
    Fn (finish c none p f v) (fun w => w = { v with acc := v.acc ++ (if b then [] else [.on p]) }) := by
  unfold finish
  cases b
  · rw [if_pos (h.2 rfl)]
    exact fn_add _ _ _
  · rw [if_neg (fun hh => by have := h.1 hh; simp at this)]
    show v = _
    simp

theorem finish_off {c : Ctx} {p : Pt} {f : Nat} {v : VSt} {l : List Vtx} {e : Vtx} {es : List Vtx}
    (h : ¬ f &&& 1 = 0) (hv : v.acc = l ++ e :: es) :
    Fn (finish c (some l.length) p f v) (fun w => w = { v with acc := l ++ .move e.pt :: es ++ [.quad p, .on e.pt] }) := by
  unfold finish
  have hk : v.acc[l.length]? = some e := by rw [hv]; simp
  simp only [hk]
  show Fn (if f &&& 1 = 0 then _ else _) _
  rw [if_neg h]
  refine (fn_add _ _ _).bind fun w hw => ?_
  refine (fn_add _ _ _).mono fun u hu => ?_
  rw [hu, hw]
  simp [hv]

theorem toV_pt (p : Pt × Bool) : (toV p).pt = p.1 := by
  unfold toV
  split <;> rfl

theorem apply_eq (m : Mat) (p : Point) : Spec.apply m p = (img m p, p.on) := rfl

theorem getLastD_map (m : Mat) (l : List Point) (a : Point) :
    ((l.map (Spec.apply m)).getLastD (Spec.apply m a)).2 = (l.getLastD a).on := by
  induction l generalizing a with
  | nil => rfl
  | cons b l ih => rw [List.map_cons, List.getLastD_cons, List.getLastD_cons]; exact ih b

theorem contour_fn {c : Ctx} {a q : Point} {qs rest : List Point} {v : VSt} {iEnd : Nat}
    (h : At c v a (q :: qs ++ rest)) (hE : iEnd = v.i + 1 + qs.length) (ht : iEnd ≤ c.tt)
    (hcl : Closed (q :: qs)) :
    Fn (contour c iEnd v) (fun w => At c w (qs.getLastD q) rest ∧ w.i = iEnd ∧
      w.acc = v.acc ++ Spec.contour ((q :: qs).map (Spec.apply c.m))) := by
  unfold contour
  rw [if_neg (by omega)]
  refine (fetch_fn h).bind fun ⟨f1, d, w⟩ hw => ?_
  simp only at hw
  obtain ⟨w1, w2, w3, w4, w5, w6⟩ := hw
  have hcur := at_cur w1
  have hfirst : Fn (firstPoint c f1 w) (fun r => (q.on = true ∧ r = (none, { w with acc := w.acc ++ [.move w.cur] })) ∨
      (q.on = false ∧ r = (some w.acc.length, w))) := by
    unfold firstPoint
    split
    · rename_i hn
      have hq : q.on = true := by
        cases hq : q.on
        · exact absurd (w4.2 hq) hn
        · rfl
      have := fn_add c w (.move w.cur)
      revert this
      cases add c w (.move w.cur) with
      | error e => exact id
      | ok u => exact fun hu => .inl ⟨hq, by rw [show u = _ from hu]⟩
    · rename_i hn
      exact .inr ⟨w4.1 (by simpa using hn), rfl⟩
  refine hfirst.bind fun ⟨st, u⟩ hu => ?_
  have hat : At c u q (qs ++ rest) ∧ u.i = w.i ∧ u.cur = w.cur := by
    rcases hu with ⟨-, hu⟩ | ⟨-, hu⟩
    · injection hu with h1 h2; rw [h2]; exact ⟨at_acc w1, rfl, rfl⟩
    · injection hu with h1 h2; rw [h2]; exact ⟨w1, rfl, rfl⟩
  show Fn (if u.i ≥ iEnd then _ else _) _
  cases qs with
  | nil =>
    simp only [List.length_nil] at hE
    rw [if_pos (by omega)]
    refine ⟨hat.1, by omega, ?_⟩
    rcases hu with ⟨hq, hu⟩ | ⟨hq, hu⟩
    · injection hu with h1 h2
      rw [h2]
      simp [Spec.contour, apply_eq, hq, w2, hcur]
    · injection hu with h1 h2
      rw [h2]
      simp [Spec.contour, apply_eq, hq, w2]
  | cons q2 qs =>
    simp only [List.length_cons] at hE
    rw [if_neg (by omega), show iEnd - u.i = (q2 :: qs).length by simp only [List.length_cons]; omega]
    refine (inner_fn (q2 :: qs) rest f1 u q hat.1 w4).bind fun ⟨f2, r⟩ hr => ?_
    simp only at hr
    obtain ⟨r1, r2, r3, r4⟩ := hr
    have hlast := getLastD_map c.m (q2 :: qs) q
    rcases hu with ⟨hq, hu⟩ | ⟨hq, hu⟩
    · injection hu with h1 h2
      subst h1
      refine (finish_on (b := ((q2 :: qs).getLastD q).on) r3).bind fun t ht => ?_
      refine (fn_add _ _ _).mono fun z hz => ?_
      rw [hz, ht]
      refine ⟨at_acc r1, by simp only [r2]; simp only [List.length_cons]; omega, ?_⟩
      rw [List.map_cons, List.map_cons, contour_on _ _ _ hq, ← List.map_cons (f := Spec.apply c.m), hlast]
      simp only [r4, hat.2.2, hcur, h2, w2, apply_eq, List.append_assoc, List.cons_append, List.nil_append]
    · injection hu with h1 h2
      subst h1
      have hl2 : ((q2 :: qs).getLastD q).on = true := by
        rcases hcl q q2 qs rfl with hh | hh
        · rw [hq] at hh; simp at hh
        · rw [List.getLastD_cons]; exact hh
      obtain ⟨e, es, he, hcon⟩ := contour_off (Spec.apply c.m q) (Spec.apply c.m q2) (qs.map (Spec.apply c.m)) hq
        (by rw [← List.map_cons (f := Spec.apply c.m), hlast]; exact hl2)
      rw [← List.map_cons (f := Spec.apply c.m)] at he
      have hacc : r.acc = w.acc ++ toV e :: es.map toV := by
        rw [r4, h2, ← apply_eq, he]; rfl
      refine (finish_off (fun hh => by rw [r3.1 hh] at hl2; simp at hl2) hacc).bind fun t ht => ?_
      refine (fn_add _ _ _).mono fun z hz => ?_
      rw [hz, ht]
      refine ⟨at_acc r1, by simp only [r2]; simp only [List.length_cons]; omega, ?_⟩
      rw [List.map_cons, List.map_cons, hcon]
      simp only [toV_pt, hat.2.2, hcur, w2, apply_eq, List.append_assoc, List.cons_append, List.nil_append]

end Blend2D.Glyf
