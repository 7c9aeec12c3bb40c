import Verif.Glyf.Flags
/-! No data makes the decoder of simple glyphs read or write outside of its arrays. -/
namespace Blend2D.Glyf
open Blend2D.Kern (u8 u16 u32 i16)

/-- What is known when the vertices are decoded: the coordinates are in the table, behind each other. -/
structure CInv (c : Ctx) (x0 y0 : Nat) : Prop where
  len : c.fs.length = c.tt
  xs : x0 + wsum xsz c.fs ≤ c.glyf.length
  ys : y0 + wsum ysz c.fs ≤ c.glyf.length

/-- What holds of the state while the vertices are decoded: `k` vertices were appended in addition to those of
the points. -/
structure VInv (c : Ctx) (x0 y0 k : Nat) (v : VSt) : Prop where
  i_le : v.i ≤ c.tt
  xp : v.xp = x0 + wsum xsz (c.fs.take v.i)
  yp : v.yp = y0 + wsum ysz (c.fs.take v.i)
  acc : v.acc.length ≤ v.i + wsum extra (c.fs.take v.i) + k

theorem coord_ok {g : List UInt8} {p : Nat} {a b : Bool}
    (h : p + (if a then 1 else if b then 0 else 2) ≤ g.length) :
    Ok (coord g p a b) (fun r => r.2 = if a then 1 else if b then 0 else 2) := by
  unfold coord
  cases a
  · cases b
    · simp only [Bool.false_eq_true, if_false] at h ⊢
      exact (ok_i16 h).bind fun _ _ => rfl
    · exact rfl
  · simp only [if_true] at h ⊢
    exact (ok_u8 (by omega)).bind fun _ _ => rfl

theorem xsz_eq (f : Nat) : xsz f = if (f &&& 2 != 0) = true then 1 else if (f &&& 16 != 0) = true then 0 else 2 := by
  simp only [xsz, bne_iff_ne]

theorem ysz_eq (f : Nat) : ysz f = if (f &&& 4 != 0) = true then 1 else if (f &&& 32 != 0) = true then 0 else 2 := by
  simp only [ysz, bne_iff_ne]

theorem fetch_ok {c : Ctx} {x0 y0 k : Nat} {v : VSt} (hc : CInv c x0 y0) (h : VInv c x0 y0 k v) (hi : v.i < c.tt) :
    Ok (fetch c v) (fun r => r.2.2.i = v.i + 1 ∧ c.fs[v.i]? = some r.1 ∧ r.2.2.acc = v.acc ∧
      r.2.2.xp = x0 + wsum xsz (c.fs.take (v.i + 1)) ∧ r.2.2.yp = y0 + wsum ysz (c.fs.take (v.i + 1))) := by
  unfold fetch
  have hl : v.i < c.fs.length := by rw [hc.len]; exact hi
  have hx := wsum_take_succ xsz c.fs v.i hl
  have hy := wsum_take_succ ysz c.fs v.i hl
  have hx' := wsum_take_le xsz c.fs (v.i + 1)
  have hy' := wsum_take_le ysz c.fs (v.i + 1)
  have h1 := hc.xs
  have h2 := hc.ys
  have h3 := h.xp
  have h4 := h.yp
  rw [List.getElem?_eq_getElem hl]
  show Ok (coord _ _ _ _ >>= _) _
  generalize c.fs[v.i] = f at hx hy
  rw [xsz_eq] at hx
  rw [ysz_eq] at hy
  refine (coord_ok (by omega)).bind fun ⟨dx, nx⟩ ha => ?_
  refine (coord_ok (by omega)).bind fun ⟨dy, ny⟩ hb => ?_
  simp only at ha hb
  refine ⟨rfl, rfl, rfl, ?_, ?_⟩
  · simp only; omega
  · simp only; omega

theorem add_ok {c : Ctx} {v : VSt} {x : Vtx} (h : v.acc.length < c.cap) :
    add c v x = .ok { v with acc := v.acc ++ [x] } := by
  rw [add, if_pos h]

/-- The room that is needed for the points up to `i`, with `k` further vertices. -/
theorem addPoint_ok {c : Ctx} {f : Nat} {d : Pt} {v : VSt} (h : v.acc.length + 1 + extra f ≤ c.cap) :
    Ok (addPoint c f d v) (fun w => ∃ l, w = { v with acc := v.acc ++ l } ∧ l.length = 1 + extra f) := by
  unfold addPoint
  by_cases hf : f &&& 129 = 0
  · have he : extra f = 1 := by rw [extra, if_pos hf]
    rw [if_neg (by simpa using hf), add_ok (by omega)]
    show Ok (add c _ _) _
    rw [add_ok (by simp only [List.length_append, List.length_singleton]; omega)]
    exact ⟨[.on (v.cur.sub d.half), .quad v.cur], by simp [List.append_assoc], by rw [he]; rfl⟩
  · have he : extra f = 0 := by rw [extra, if_neg hf]
    rw [if_pos hf, add_ok (by omega)]
    exact ⟨[_], rfl, by rw [he]; rfl⟩

theorem finish_ok {c : Ctx} {start : Option Nat} {p : Pt} {f : Nat} {v : VSt}
    (hs : ∀ k, start = some k → k < v.acc.length)
    (hcap : v.acc.length + (if start.isSome then 3 else 1) ≤ c.cap) :
    Ok (finish c start p f v) (fun w => w.i = v.i ∧ w.xp = v.xp ∧ w.yp = v.yp ∧
      w.acc.length ≤ v.acc.length + (if start.isSome then 3 else 1)) := by
  unfold finish
  cases start with
  | some k =>
    have hk := hs k rfl
    simp only [Option.isSome_some, if_true] at hcap ⊢
    rw [List.getElem?_eq_getElem hk]
    show Ok (if f &&& 1 = 0 then _ else _) _
    split
    · rw [add_ok (by simp only [List.length_set]; omega)]
      show Ok (add c _ _ >>= _) _
      rw [add_ok (by simp only [List.length_append, List.length_set, List.length_singleton]; omega)]
      show Ok (add c _ _) _
      rw [add_ok (by simp only [List.length_append, List.length_set, List.length_singleton]; omega)]
      refine ⟨rfl, rfl, rfl, ?_⟩
      simp only [List.length_append, List.length_set, List.length_singleton]
      omega
    · rw [add_ok (by simp only [List.length_set]; omega)]
      show Ok (add c _ _) _
      rw [add_ok (by simp only [List.length_append, List.length_set, List.length_singleton]; omega)]
      refine ⟨rfl, rfl, rfl, ?_⟩
      simp only [List.length_append, List.length_set, List.length_singleton]
      omega
  | none =>
    simp only [Option.isSome_none, Bool.false_eq_true, if_false] at hcap ⊢
    split
    · rw [add_ok (by omega)]
      refine ⟨rfl, rfl, rfl, ?_⟩
      simp only [List.length_append, List.length_singleton]
      omega
    · exact ⟨rfl, rfl, rfl, by omega⟩

theorem firstPoint_ok {c : Ctx} {f : Nat} {v : VSt} (h : v.acc.length < c.cap) :
    Ok (firstPoint c f v) (fun r => r.2.i = v.i ∧ r.2.xp = v.xp ∧ r.2.yp = v.yp ∧
      (∀ k, r.1 = some k → k = v.acc.length) ∧
      r.2.acc.length = v.acc.length + (if r.1.isSome then 0 else 1)) := by
  unfold firstPoint
  split
  · rw [add_ok h]
    exact ⟨rfl, rfl, rfl, fun k hk => (by cases hk), by simp⟩
  · exact ⟨rfl, rfl, rfl, fun k hk => (Option.some.inj hk).symm, by simp⟩

theorem contour_ok {c : Ctx} {x0 y0 k iEnd : Nat} {v : VSt} (hc : CInv c x0 y0)
    (hcap : c.tt + wsum extra c.fs + (k + 3) ≤ c.cap) (h : VInv c x0 y0 k v) :
    Ok (contour c iEnd v) (fun w => VInv c x0 y0 (k + 3) w) := by
  unfold contour
  split
  · exact Err.noConfusion
  · rename_i hE
    have hE1 : v.i < iEnd := by omega
    have hE2 : iEnd ≤ c.tt := by omega
    clear hE
    refine (fetch_ok hc h (by omega)).bind fun ⟨f, d, w⟩ hw => ?_
    simp only at hw
    obtain ⟨h1, h2, h3, h4, h5⟩ := hw
    have hl : v.i < c.fs.length := by have := hc.len; omega
    have he := wsum_take_succ extra c.fs v.i hl
    have hle := wsum_take_le extra c.fs (v.i + 1)
    have ha := h.acc
    refine (firstPoint_ok (by rw [h3]; omega)).bind fun ⟨st, u⟩ hu => ?_
    simp only at hu
    obtain ⟨g1, g2, g3, g4, g5⟩ := hu
    rw [h3] at g4 g5
    have hs : (if st.isSome then 0 else 1) ≤ 1 := by split <;> omega
    show Ok (if u.i ≥ iEnd then _ else _) _
    split
    · rename_i hge
      refine ⟨by omega, ?_, ?_, ?_⟩
      · rw [g1, h1, g2]; exact h4
      · rw [g1, h1, g3]; exact h5
      · rw [g1, h1]; omega
    · rename_i hlt
      -- an on-curve start has used the room of its own point, an off-curve start has not
      have hadd : Ok (inner c (iEnd - u.i) f u) (fun r => r.2.i = iEnd ∧
          r.2.xp = x0 + wsum xsz (c.fs.take r.2.i) ∧ r.2.yp = y0 + wsum ysz (c.fs.take r.2.i) ∧
          r.2.acc.length + 1 ≤ r.2.i + wsum extra (c.fs.take r.2.i) + k + (if st.isSome then 0 else 1) ∧
          u.acc.length < r.2.acc.length) := by
        have key : ∀ n f u, u.i + n ≤ c.tt → u.xp = x0 + wsum xsz (c.fs.take u.i) →
            u.yp = y0 + wsum ysz (c.fs.take u.i) →
            u.acc.length + 1 ≤ u.i + wsum extra (c.fs.take u.i) + k + (if st.isSome then 0 else 1) →
            Ok (inner c n f u) (fun r => r.2.i = u.i + n ∧
              r.2.xp = x0 + wsum xsz (c.fs.take r.2.i) ∧ r.2.yp = y0 + wsum ysz (c.fs.take r.2.i) ∧
              r.2.acc.length + 1 ≤ r.2.i + wsum extra (c.fs.take r.2.i) + k + (if st.isSome then 0 else 1) ∧
              u.acc.length + n ≤ r.2.acc.length) := by
          clear * - hc hcap hs
          intro n
          induction n with
          | zero => exact fun f u _ a b d => ⟨rfl, a, b, d, Nat.le_refl _⟩
          | succ n ih =>
            intro f u hn hx hy hacc
            unfold inner
            refine (fetch_ok (k := k) hc ⟨by omega, hx, hy, by omega⟩ (by omega)).bind fun ⟨f, d, w⟩ hw => ?_
            simp only at hw
            obtain ⟨h1, h2, h3, h4, h5⟩ := hw
            have hl : u.i < c.fs.length := by have := hc.len; omega
            have he := wsum_take_succ extra c.fs u.i hl
            rw [List.getElem?_eq_getElem hl] at h2
            have h2' : c.fs[u.i] = f := Option.some.inj h2
            rw [h2'] at he
            have hle := wsum_take_le extra c.fs (u.i + 1)
            refine (addPoint_ok (by rw [h3]; omega)).bind fun t ht => ?_
            obtain ⟨l, rfl, hlen⟩ := ht
            refine (ih f _ ?_ ?_ ?_ ?_).mono fun r hr => ⟨?_, hr.2.1, hr.2.2.1, hr.2.2.2.1, ?_⟩
            · simp only; omega
            · simp only [h1]; exact h4
            · simp only [h1]; exact h5
            · simp only [h1, h3, List.length_append]; omega
            · have := hr.1; simp only at this; omega
            · have := hr.2.2.2.2; simp only [h3, List.length_append] at this; omega
        refine (key (iEnd - u.i) f u (by omega) ?_ ?_ ?_).mono fun r hr => ?_
        · rw [g1, h1, g2]; exact h4
        · rw [g1, h1, g3]; exact h5
        · rw [g1, h1]; omega
        · obtain ⟨q1, q2, q3, q4, q5⟩ := hr
          exact ⟨by omega, q2, q3, q4, by omega⟩
      refine hadd.bind fun ⟨f', r⟩ hr => ?_
      simp only at hr
      obtain ⟨q1, q2, q3, q4, q5⟩ := hr
      have hle' := wsum_take_le extra c.fs r.i
      have hst : (if st.isSome then 0 else 1) + (if st.isSome then 3 else 1) ≤ 3 := by split <;> omega
      refine (finish_ok (fun k' hk' => ?_) (by omega)).bind fun t ht => ?_
      · have := g4 k' hk'; omega
      · obtain ⟨t1, t2, t3, t4⟩ := ht
        rw [add_ok (by omega)]
        refine ⟨?_, ?_, ?_, ?_⟩
        · simp only; omega
        · simp only [t1]; omega
        · simp only [t1]; omega
        · simp only [t1, List.length_append, List.length_singleton]; omega

theorem contours_ok {c : Ctx} {x0 y0 ca : Nat} (hc : CInv c x0 y0) (n : Nat) (k : Nat) (v : VSt)
    (hcap : c.tt + wsum extra c.fs + (k + 3 * n) ≤ c.cap) (h : VInv c x0 y0 k v)
    (hca : ca + 2 * n ≤ c.glyf.length) : Ok (contours c ca n v) (fun _ => True) := by
  induction n generalizing k v ca with
  | zero => exact trivial
  | succ n ih =>
    unfold contours
    refine (ok_u16 (by omega)).bind fun e _ => ?_
    refine (contour_ok hc (by omega) h).bind fun w hw => ?_
    exact ih (ca := ca + 2) (k + 3) w (by omega) hw (by omega)

theorem simpleBody_ok {g : List UInt8} {m : Mat} {ca cc p gEnd : Nat} (hcc : 0 < cc)
    (h1 : ca + 2 * cc ≤ p) (h2 : p ≤ gEnd) (h3 : gEnd ≤ g.length)
    (hfew : ∀ e, u16 g (ca + (cc - 1) * 2) = some e → e < 32767) :
    Ok (simpleBody g m ca cc p gEnd) (fun _ => True) := by
  unfold simpleBody
  obtain ⟨e, he, -⟩ := Kern.u16_some (d := g) (i := ca + (cc - 1) * 2) (by omega)
  have hfew := hfew e he
  rw [he]
  show Ok (if e + 1 ≤ 1 then _ else _) _
  split
  · trivial
  · refine (flagLoop_inv h3 (e + 1) _ ?_ (by simp) (by simp)).bind fun s hs => ?_
    · exact ⟨h2, by show 1 < 256; decide, by simp, by simp [wsum], by simp [wsum]⟩
    · obtain ⟨hi, hlen⟩ := hs
      have hx := wsum_le xsz 2 s.fs xsz_le
      have hxy := hi.xy
      have e1 : s.xy % 65536 = wsum xsz s.fs := by omega
      have e2 : s.xy / 65536 = wsum ysz s.fs := by omega
      have hp := hi.p_le
      simp only [e1, e2]
      split
      · exact Err.noConfusion
      · refine (contours_ok (x0 := s.p) (y0 := s.p + wsum xsz s.fs) ?_ cc 0 _ ?_ ?_ ?_).bind fun _ _ => trivial
        · exact ⟨hlen, by simp only; omega, by simp only; omega⟩
        · simp only [hi.offc]; omega
        · exact ⟨by simp, by simp [wsum], by simp [wsum], by simp⟩
        · simp only; omega

theorem simple_ok {g : List UInt8} {m : Mat} {o size cc : Nat} (hcc : 0 < cc) (h : o + size ≤ g.length)
    (hfew : ∀ e, u16 g (o + 10 + (cc - 1) * 2) = some e → e < 32767) :
    Ok (simple g m o size cc) (fun _ => True) := by
  unfold simple
  split
  · exact Err.noConfusion
  · refine (ok_u16 (by omega)).bind fun n _ => ?_
    split
    · exact Err.noConfusion
    · exact simpleBody_ok hcc (by omega) (by omega) h hfew

end Blend2D.Glyf
