import Verif.Pattern.Lemmas

namespace Blend2D.Pattern

/-- Setup of the horizontal context. -/
theorem hctx_init {bpp w h stride : Int} (hw : 0 < w) (hw' : w < 2 ^ 16) {mx my : Ext} {tx ty : Int}
    (ht0 : -(2 ^ 31) ≤ tx) (ht1 : tx < 2 ^ 31) {fr : Bool} {wa wb wc wd : Int} :
    ∃ t : Int,
      let r := initTxTy w h stride mx my tx ty fr wa wb wc wd
      HConst bpp w (effective w mx) r.2 (HCtx.init bpp r.1 r.2) ∧
      (HCtx.init bpp r.1 r.2).tx = (if r.2 = .ror then t else t * bpp) ∧
      ∀ x, pixelAt w (effective w mx) (x + t) = pixelAt w mx (x + tx) := by
  obtain ⟨e, he⟩ : ∃ e, e = effective w mx := ⟨_, rfl⟩
  have hpe := fun x => pixelAt_effective hw mx x
  rw [← he] at hpe ⊢
  simp only [initTxTy, ← he]
  cases e with
  | pad => exact ⟨tx, ⟨rfl, rfl⟩, rfl, fun x => hpe _⟩
  | rep =>
    obtain ⟨n0, n1, n2⟩ := normT_spec (t := tx) (r := w) hw (by omega) ht0 ht1
    refine ⟨normT tx w, ?_, ?_, fun x => ?_⟩
    · cases fr <;> simp [HConst, HCtx.init, period]
    · cases fr <;> simp [HCtx.init, period]
    · rw [← hpe]; exact pixelAt_normT (by decide) n2
  | reflect =>
    obtain ⟨n0, n1, n2⟩ := normT_spec (t := tx) (r := w * 2) (by omega) (by omega) ht0 ht1
    refine ⟨normT tx (w * 2), ?_, ?_, fun x => ?_⟩
    · simp [HConst, HCtx.init, period]
    · simp [HCtx.init, period]
    · rw [← hpe]; exact pixelAt_normT (by decide) n2

/-- `rect_init` followed by `rect_start`. -/
theorem hctx_rect {bpp w : Int} (hb : 0 < bpp) (hw : 0 < w) {m : Ext} {k : Horz} {d : Data} {t : Int}
    (hc : HConst bpp w m k (HCtx.init bpp d k)) (ht : (HCtx.init bpp d k).tx = if k = .ror then t else t * bpp) (x : Int) :
    HConst bpp w m k (HCtx.rectInit bpp d k x) ∧
    HInv bpp w m k (HCtx.rectInit bpp d k x).rectStart (x + t) := by
  have h := HInv.spanStart hb hw hc ht x
  cases k with
  | pad =>
    refine ⟨hc.set _ _, ?_⟩
    simp only [HInv, HCtx.rectStart, HCtx.rectInit, HCtx.spanStart] at h ⊢
    omega
  | rep => exact ⟨hc.set _ _, h⟩
  | ror =>
    refine ⟨hc.set _ _, ?_⟩
    cases m <;> exact h

theorem hinv_congr {bpp w : Int} {m : Ext} {k : Horz} {c c' : HCtx} {X : Int} (e : c.x = c'.x) (h : HInv bpp w m k c X) :
    HInv bpp w m k c' X := by
  cases k <;> (try cases m) <;> simp only [HInv] at h ⊢ <;> rw [← e] <;> exact h

/-- What is known about the horizontal context between calls: how a start positions it. -/
def Starts (bpp w : Int) (m : Ext) (k : Horz) (rect : Option Int) (t : Int) (c : HCtx) : Prop :=
  HConst bpp w m k c ∧
  match rect with
  | some x0 => HInv bpp w m k c.rectStart (x0 + t)
  | none => c.tx = if k = .ror then t else t * bpp

theorem Starts.same {bpp w : Int} {m : Ext} {k : Horz} {rect : Option Int} {t : Int} {c c' : HCtx}
    (h : Starts bpp w m k rect t c) (hc : HConst bpp w m k c') (e : c'.tx = c.tx) : Starts bpp w m k rect t c' := by
  refine ⟨hc, ?_⟩
  obtain ⟨-, h⟩ := h
  cases rect with
  | none => simp only [] at h ⊢; rw [e]; exact h
  | some x0 => exact hinv_congr (c := c.rectStart) e.symm h

theorem starts_init {bpp w : Int} (hb : 0 < bpp) (hw : 0 < w) {m : Ext} {k : Horz} {d : Data} {t : Int} (rect : Option Int)
    (hc : HConst bpp w m k (HCtx.init bpp d k)) (ht : (HCtx.init bpp d k).tx = if k = .ror then t else t * bpp) :
    Starts bpp w m k rect t (match rect with | some x => HCtx.rectInit bpp d k x | none => HCtx.init bpp d k) := by
  cases rect with
  | none => exact ⟨hc, ht⟩
  | some x => exact ⟨(hctx_rect hb hw hc ht x).1, (hctx_rect hb hw hc ht x).2⟩

section
variable {bpp w h stride : Int} {mx my : Ext} {k : Horz} {rect : Option Int} {t : Int}

theorem aligned_run (hb : 0 < bpp) (hw : 0 < w) (hh : 0 < h) (addrOf : Int → Int → Int) {dy : Int}
    (ha : ∀ x y, addrOf x y = pixelAt h my (y + dy) * stride + pixelAt w mx (x + t) * bpp)
    (cs : List Call) (s : Aligned) (p : Pos) (st : Bool)
    (hS : Starts bpp w mx k rect t s.c) (hV : VInv h stride my s.v (p.y + dy))
    (hH : st = true → HInv bpp w mx k s.c (p.x + t)) (hl : legal bpp rect.isSome st cs) :
    s.run bpp k cs = (fetched (rect.getD 0) p cs).map (fun q => addrOf q.x q.y) := by
  induction cs generalizing s p st with
  | nil => rfl
  | cons c cs ih =>
    cases c with
    | advanceY =>
      simp only [Aligned.run, Aligned.call, Option.toList, List.nil_append, fetched, Pos.move]
      refine ih _ _ false hS ?_ (by simp) hl
      have := hV.advance hh
      rw [show p.y + 1 + dy = p.y + dy + 1 by omega]
      exact this
    | rectStart =>
      simp only [Aligned.run, Aligned.call, Option.toList, List.nil_append, fetched, Pos.move]
      obtain ⟨hr, hl⟩ := hl
      have hk := HConst.rectStart hS.1
      refine ih _ _ true (hS.same hk.1 hk.2) hV (fun _ => ?_) hl
      cases rect with
      | none => simp at hr
      | some x0 => exact hS.2
    | spanStart x =>
      simp only [Aligned.run, Aligned.call, Option.toList, List.nil_append, fetched, Pos.move]
      obtain ⟨hr, -, hl⟩ := hl
      have hk := HConst.spanStart hS.1 x
      refine ih _ _ true (hS.same hk.1 hk.2) hV (fun _ => ?_) hl
      cases rect with
      | none => exact HInv.spanStart hb hw hS.1 hS.2 x
      | some x0 => simp at hr
    | spanAdvance n =>
      simp only [Aligned.run, Aligned.call, Option.toList, List.nil_append, fetched, Pos.move]
      obtain ⟨hst, h0, h1, hl⟩ := hl
      have hk := HConst.spanAdvance hS.1 n
      refine ih _ _ true (hS.same hk.1 hk.2) hV (fun _ => ?_) hl
      rw [show p.x + n + t = p.x + t + n by omega]
      exact HInv.spanAdvance hb hw hS.1 (hH hst) h0 h1
    | fetch =>
      obtain ⟨hst, hl⟩ := hl
      have hk := HConst.advance1 (bpp := bpp) hS.1
      simp only [Aligned.run, Aligned.call, Option.toList, List.cons_append, List.nil_append, fetched, Pos.move, List.map_cons]
      refine List.cons_eq_cons.mpr ⟨?_, ?_⟩
      · rw [hV.ptr hh, HInv.index hb hw hS.1 (hH hst), ha]
      · refine ih _ _ true (hS.same hk.1 hk.2) hV (fun _ => ?_) hl
        rw [show p.x + 1 + t = p.x + t + 1 by omega]
        exact HInv.advance1 hb hw hS.1 (hH hst)

/-- Interpolated value of the four pixels around a position. -/
theorem fxfy_run (hb : 0 < bpp) (hw : 0 < w) (hh : 0 < h) (img : Int → Nat) (d : Data) (addrOf : Int → Int → Int) {dy : Int}
    (ha : ∀ x y, addrOf x y = pixelAt h my (y + dy) * stride + pixelAt w mx (x + t) * bpp)
    (cs : List Call) (s : FxFy) (p : Pos) (st : Bool)
    (hS : Starts bpp w mx k rect t s.c) (hV : VInv h stride my s.v (p.y + 1 + dy))
    (hP : s.ptr0 = pixelAt h my (p.y + dy) * stride)
    (hH : st = true → HInv bpp w mx k s.c (p.x + t) ∧
      s.acc = (img (addrOf p.x p.y) * d.wa.toNat + img (addrOf p.x (p.y + 1)) * d.wc.toNat) % 65536)
    (hl : legal bpp rect.isSome st cs) :
    s.run img bpp d k cs = (fetched (rect.getD 0) p cs).map (fun q =>
      (img (addrOf (q.x + 1) q.y) * d.wb.toNat + img (addrOf (q.x + 1) (q.y + 1)) * d.wd.toNat +
        (img (addrOf q.x q.y) * d.wa.toNat + img (addrOf q.x (q.y + 1)) * d.wc.toNat) % 65536) % 65536 / 256) := by
  induction cs generalizing s p st with
  | nil => rfl
  | cons c cs ih =>
    have acc : ∀ (c' : HCtx) (X : Int), HConst bpp w mx k c' → HInv bpp w mx k c' (X + t) →
        (FxFy.initAcc img bpp d k { s with c := c' }).acc =
        (img (addrOf X p.y) * d.wa.toNat + img (addrOf X (p.y + 1)) * d.wc.toNat) % 65536 := by
      intro c' X hc hX
      simp only [FxFy.initAcc]
      rw [hP, hV.ptr hh, HInv.index hb hw hc hX, ha, ha]
    cases c with
    | advanceY =>
      simp only [FxFy.run, FxFy.call, Option.toList, List.nil_append, fetched, Pos.move]
      refine ih _ _ false hS ?_ ?_ (by simp) hl
      · have := hV.advance hh
        rw [show p.y + 1 + 1 + dy = p.y + 1 + dy + 1 by omega]
        exact this
      · exact hV.ptr hh
    | rectStart =>
      simp only [FxFy.run, FxFy.call, Option.toList, List.nil_append, fetched, Pos.move]
      obtain ⟨hr, hl⟩ := hl
      have hk := HConst.rectStart hS.1
      have hX : HInv bpp w mx k s.c.rectStart (rect.getD 0 + t) := by
        cases rect with
        | none => simp at hr
        | some x0 => exact hS.2
      exact ih _ _ true (hS.same hk.1 hk.2) hV hP (fun _ => ⟨hX, acc _ _ hk.1 hX⟩) hl
    | spanStart x =>
      simp only [FxFy.run, FxFy.call, Option.toList, List.nil_append, fetched, Pos.move]
      obtain ⟨hr, -, hl⟩ := hl
      have hk := HConst.spanStart hS.1 x
      have hX : HInv bpp w mx k (s.c.spanStart bpp k x) (x + t) := by
        cases rect with
        | none => exact HInv.spanStart hb hw hS.1 hS.2 x
        | some x0 => simp at hr
      exact ih _ _ true (hS.same hk.1 hk.2) hV hP (fun _ => ⟨hX, acc _ _ hk.1 hX⟩) hl
    | spanAdvance n =>
      simp only [FxFy.run, FxFy.call, Option.toList, List.nil_append, fetched, Pos.move]
      obtain ⟨hst, h0, h1, hl⟩ := hl
      have hk := HConst.spanAdvance hS.1 n
      have hX : HInv bpp w mx k (s.c.spanAdvance bpp k n) (p.x + n + t) := by
        rw [show p.x + n + t = p.x + t + n by omega]
        exact HInv.spanAdvance hb hw hS.1 (hH hst).1 h0 h1
      exact ih _ _ true (hS.same hk.1 hk.2) hV hP (fun _ => ⟨hX, acc _ _ hk.1 hX⟩) hl
    | fetch =>
      obtain ⟨hst, hl⟩ := hl
      have hk := HConst.advance1 (bpp := bpp) hS.1
      have hX : HInv bpp w mx k (s.c.advance1 bpp k) (p.x + 1 + t) := by
        rw [show p.x + 1 + t = p.x + t + 1 by omega]
        exact HInv.advance1 hb hw hS.1 (hH hst).1
      simp only [FxFy.run, FxFy.call, Option.toList, List.cons_append, List.nil_append, fetched, Pos.move, List.map_cons]
      have e0 : s.ptr0 + (s.c.advance1 bpp k).index bpp k = addrOf (p.x + 1) p.y := by
        rw [hP, HInv.index hb hw hk.1 hX, ha]
      have e1 : s.v.ptr + (s.c.advance1 bpp k).index bpp k = addrOf (p.x + 1) (p.y + 1) := by
        rw [hV.ptr hh, HInv.index hb hw hk.1 hX, ha]
      rw [e0, e1]
      refine List.cons_eq_cons.mpr ⟨?_, ?_⟩
      · rw [(hH hst).2]
      · exact ih _ _ true (hS.same hk.1 hk.2) hV hP (fun _ => ⟨hX, rfl⟩) hl
end

/-- The aligned fetcher set up by `init_pattern_tx_ty`. -/
theorem aligned_main {w h stride bpp : Int} (hw : 0 < w) (hw' : w < 2 ^ 16) (hh : 0 < h) (hh' : h < 2 ^ 16) (hb : 0 < bpp)
    (mx my : Ext) {tx ty : Int} (hx0 : -(2 ^ 31) ≤ tx) (hx1 : tx < 2 ^ 31) (hy0 : -(2 ^ 31) ≤ ty) (hy1 : ty < 2 ^ 31)
    {fr : Bool} {wa wb wc wd : Int} {d : Data} {k : Horz} (hd : initTxTy w h stride mx my tx ty fr wa wb wc wd = (d, k))
    (rect : Option Int) {y0 : Int} (hp0 : 0 ≤ y0) (hp1 : y0 < 2 ^ 31)
    (cs : List Call) (hl : legal bpp rect.isSome false cs) :
    (Aligned.init bpp d k rect y0).run bpp k cs =
      (fetched (rect.getD 0) ⟨0, y0⟩ cs).map (fun p => address w h stride bpp mx my (p.x + tx) (p.y + ty)) := by
  obtain ⟨t, hc, ht, hpx⟩ := hctx_init (bpp := bpp) (h := h) (stride := stride) (my := my) (ty := ty) (fr := fr)
    (wa := wa) (wb := wb) (wc := wc) (wd := wd) hw hw' (mx := mx) hx0 hx1
  obtain ⟨Y0, hV, hpy⟩ := VInv.init (w := w) (stride := stride) hh hh' (mx := mx) (my := my) (tx := tx) hy0 hy1
    (fr := fr) (wa := wa) (wb := wb) (wc := wc) (wd := wd) hp0 hp1
  rw [hd] at hc ht hV
  refine aligned_run (mx := effective w mx) (my := effective h my) (t := t) (stride := stride) (dy := Y0 - y0) (k := k) hb hw hh
    (fun x y => address w h stride bpp mx my (x + tx) (y + ty)) ?_ cs (Aligned.init bpp d k rect y0) ⟨0, y0⟩ false ?_ ?_ (by simp) hl
  · intro x y
    simp only [address]
    rw [hpx, show y + (Y0 - y0) = Y0 + (y - y0) by omega, hpy, show y0 + ty + (y - y0) = y + ty by omega]
  · exact starts_init hb hw rect hc ht
  · rw [show y0 + (Y0 - y0) = Y0 by omega]; exact hV

/-- The fractional fetcher set up by `init_pattern_tx_ty`. -/
theorem fxfy_main {w h stride bpp : Int} (hw : 0 < w) (hw' : w < 2 ^ 16) (hh : 0 < h) (hh' : h < 2 ^ 16) (hb : 0 < bpp)
    (mx my : Ext) {tx ty : Int} (hx0 : -(2 ^ 31) ≤ tx) (hx1 : tx < 2 ^ 31) (hy0 : -(2 ^ 31) ≤ ty) (hy1 : ty < 2 ^ 31)
    {fr : Bool} {wa wb wc wd : Int} {d : Data} {k : Horz} (hd : initTxTy w h stride mx my tx ty fr wa wb wc wd = (d, k))
    (rect : Option Int) {y0 : Int} (hp0 : 0 ≤ y0) (hp1 : y0 < 2 ^ 31)
    (img : Int → Nat) (cs : List Call) (hl : legal bpp rect.isSome false cs) :
    let at' := fun x y => img (address w h stride bpp mx my (x + tx) (y + ty))
    (FxFy.init bpp d k rect y0).run img bpp d k cs =
      (fetched (rect.getD 0) ⟨0, y0⟩ cs).map (fun p =>
        (at' (p.x + 1) p.y * d.wb.toNat + at' (p.x + 1) (p.y + 1) * d.wd.toNat +
          (at' p.x p.y * d.wa.toNat + at' p.x (p.y + 1) * d.wc.toNat) % 65536) % 65536 / 256) := by
  obtain ⟨t, hc, ht, hpx⟩ := hctx_init (bpp := bpp) (h := h) (stride := stride) (my := my) (ty := ty) (fr := fr)
    (wa := wa) (wb := wb) (wc := wc) (wd := wd) hw hw' (mx := mx) hx0 hx1
  obtain ⟨Y0, hV, hpy⟩ := VInv.init (w := w) (stride := stride) hh hh' (mx := mx) (my := my) (tx := tx) hy0 hy1
    (fr := fr) (wa := wa) (wb := wb) (wc := wc) (wd := wd) hp0 hp1
  rw [hd] at hc ht hV
  refine fxfy_run (mx := effective w mx) (my := effective h my) (t := t) (stride := stride) (dy := Y0 - y0) (k := k) hb hw hh img d
    (fun x y => address w h stride bpp mx my (x + tx) (y + ty)) ?_ cs (FxFy.init bpp d k rect y0) ⟨0, y0⟩ false ?_ ?_ ?_ (by simp) hl
  · intro x y
    simp only [address]
    rw [hpx, show y + (Y0 - y0) = Y0 + (y - y0) by omega, hpy, show y0 + ty + (y - y0) = y + ty by omega]
  · exact starts_init hb hw rect hc ht
  · rw [show y0 + 1 + (Y0 - y0) = Y0 + 1 by omega]; exact hV.advance hh
  · rw [show y0 + (Y0 - y0) = Y0 by omega]; exact hV.ptr hh

end Blend2D.Pattern
