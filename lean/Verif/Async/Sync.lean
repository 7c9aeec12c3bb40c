import Verif.Async.Run
import Verif.Draw.Props

/-! # The same shapes without threads -/

namespace Blend2D.Async
open Draw Draw.Spec Raster Raster.Spec Spec

variable {P : Type} {E : Env}

/-- The configuration of a shape. -/
def Job.cfg (E : Env) (j : Job P) : Cfg := ⟨E.o, E.w, E.bh, j.rule, j.alpha⟩

/-- The lists of the bands, linked, are all edges of the shape. -/
theorem flat_eq {j : Job P} (S : Shape (j.cfg E) E.h j.y0 j.y1 j.bands) : j.flat E.bh = j.bands.flatten := by
  have hp : 0 < 256 * E.bh := by have := E.bh_pos; omega
  have hord := S.order
  have hin := S.inside
  have hen : E.h ≤ j.bands.length * E.bh := S.enough
  have hle : j.y0 / (256 * E.bh) ≤ j.y1 / (256 * E.bh) := Nat.div_le_div_right (by omega)
  have hlt : j.y0 / (256 * E.bh) < j.bands.length := by
    rw [Nat.div_lt_iff_lt_mul hp]
    have : j.bands.length * (256 * E.bh) = 256 * (j.bands.length * E.bh) := by ring
    omega
  unfold Job.flat
  simp only []
  have hd0 : j.y0 / (256 * E.bh) * (256 * E.bh) ≤ j.y0 := Nat.div_mul_le_self _ _
  have hd1 : j.y1 < (j.y1 / (256 * E.bh) + 1) * (256 * E.bh) := by
    rw [Nat.succ_mul]
    exact Nat.lt_div_mul_add hp
  generalize j.y0 / (256 * E.bh) = start at *
  generalize j.y1 / (256 * E.bh) = stop at *
  obtain ⟨n, hn⟩ : ∃ n, max 1 (min (stop + 1) j.bands.length - start) = n := ⟨_, rfl⟩
  rw [hn]
  -- a band that holds an edge is not left out
  have hband : ∀ (id : Nat) vs, j.bands[id]? = some vs → vs ≠ [] → start ≤ id ∧ id < start + n := by
    intro id vs hv hne
    obtain ⟨v, hm⟩ := List.exists_mem_of_ne_nil vs hne
    obtain ⟨p, l, _, e2, e3, e4, e5⟩ := S.first hv hm
    have e2 : 256 * ((id * E.bh : Nat) : Int) ≤ p.y := e2
    have e3 : p.y < 256 * (((id + 1) * E.bh : Nat) : Int) := e3
    have hid := (List.getElem?_eq_some_iff.1 hv).1
    constructor
    · by_contra hc
      have h1 : (id + 1) * (256 * E.bh) ≤ start * (256 * E.bh) := Nat.mul_le_mul_right _ (by omega)
      have h2 : (id + 1) * (256 * E.bh) = 256 * ((id + 1) * E.bh) := by ring
      omega
    · by_contra hc
      have h1 : (stop + 1) * (256 * E.bh) ≤ id * (256 * E.bh) := Nat.mul_le_mul_right _ (by omega)
      have h2 : id * (256 * E.bh) = 256 * (id * E.bh) := by ring
      omega
  have h1 : (j.bands.take start).flatten = [] := by
    rw [List.flatten_eq_nil_iff]
    intro vs hvs
    obtain ⟨i, hi1, hi2⟩ := List.getElem_of_mem hvs
    rw [List.getElem_take] at hi2
    have hi : i < start := by simp at hi1; omega
    by_contra hne
    have := hband i vs (by rw [← hi2]; exact List.getElem?_eq_getElem _) hne
    omega
  have h2 : (j.bands.drop (start + n)).flatten = [] := by
    rw [List.flatten_eq_nil_iff]
    intro vs hvs
    obtain ⟨i, hi1, hi2⟩ := List.getElem_of_mem hvs
    rw [List.getElem_drop] at hi2
    by_contra hne
    have := hband (start + n + i) vs (by rw [← hi2]; exact List.getElem?_eq_getElem _) hne
    omega
  have h3 : j.bands = j.bands.take start ++ ((j.bands.drop start).take n ++ j.bands.drop (start + n)) := by
    rw [drop_take, List.take_append_drop]
  conv => rhs; rw [h3]
  rw [List.flatten_append, List.flatten_append, h1, h2, List.append_nil, List.nil_append]

/-- The edges of a shape, linked, meet the requirements of the workers. -/
theorem edges_of {j : Job P} (S : Shape (j.cfg E) E.h j.y0 j.y1 j.bands) : Edges E j.y0 (j.flat E.bh) := by
  rw [flat_eq S]
  have get : ∀ v ∈ j.bands.flatten, ∃ (id : Nat) (vs : List Vec), j.bands[id]? = some vs ∧ v ∈ vs := by
    intro v hv
    obtain ⟨vs, h1, h2⟩ := List.mem_flatten.1 hv
    obtain ⟨i, hi1, hi2⟩ := List.getElem_of_mem h1
    exact ⟨i, vs, by rw [← hi2]; exact List.getElem?_eq_getElem hi1, h2⟩
  have band : ∀ (id : Nat) vs, j.bands[id]? = some vs → ∀ v ∈ vs, firstY v / (256 * E.bh) = id := by
    intro id vs h1 v h2
    obtain ⟨p, l, e1, e2⟩ := S.band id vs h1 v h2
    have : firstY v = p.y := by unfold firstY; rw [e1]
    rw [this]
    exact e2
  refine ⟨?_, ?_, ?_, ?_, S.closed⟩
  · intro v hv
    obtain ⟨vs, h1, h2⟩ := List.mem_flatten.1 hv
    exact S.down vs h1 v h2
  · intro v hv
    obtain ⟨id, vs, h1, h2⟩ := get v hv
    obtain ⟨p, l, e1, _⟩ := S.band id vs h1 v h2
    rw [e1]
    simp
  · intro v hv p hp
    obtain ⟨vs, h1, h2⟩ := List.mem_flatten.1 hv
    have := S.box vs h1 v h2 p hp
    have hin := S.inside
    exact ⟨this.1, this.2.1, this.2.2.1, by omega⟩
  · rw [List.pairwise_flatten]
    constructor
    · intro vs hvs
      obtain ⟨i, hi1, hi2⟩ := List.getElem_of_mem hvs
      have hget : j.bands[i]? = some vs := by rw [← hi2]; exact List.getElem?_eq_getElem hi1
      refine List.pairwise_of_forall_mem_list fun a ha b hb => ?_
      rw [band i vs hget a ha, band i vs hget b hb]
    · rw [List.pairwise_iff_getElem]
      intro i k hi hk hik a ha b hb
      rw [band i _ (List.getElem?_eq_getElem hi) a ha, band k _ (List.getElem?_eq_getElem hk) b hb]
      omega

/-- What C50 requires of a shape. -/
structure JobOk (E : Env) (j : Job P) : Prop where
  shape : Shape (j.cfg E) E.h j.y0 j.y1 j.bands
  good : ∀ y, Fill.Good (j.comp y)
  rule : j.rule = BitVec.allOnes 32 ∨ j.rule = 0x1FF#32
  alpha : j.alpha ≤ 255
  range : ∀ y x : Nat, -(2 ^ 31) ≤ 0x20000 + Draw.Spec.shape j.bands.flatten y x ∧ 0x20000 + Draw.Spec.shape j.bands.flatten y x < 2 ^ 31

theorem cmd_ok {j : Job P} (h : JobOk E j) : CmdOk E (j.cmd E) := by
  have := h.shape.order
  have := h.shape.inside
  refine ⟨edges_of h.shape, show j.y0 < _ by omega, h.good, h.rule, h.alpha, ?_⟩
  intro y x
  show -(2 ^ 31) ≤ 0x20000 + Draw.Spec.shape (j.flat E.bh) y x ∧ 0x20000 + Draw.Spec.shape (j.flat E.bh) y x < 2 ^ 31
  rw [flat_eq h.shape]
  exact h.range y x

theorem paint_nil (img : List (List P)) : paint [] img = img := by
  refine List.ext_getElem? fun y => ?_
  rw [paint, List.getElem?_mapIdx]
  cases img[y]? <;> rfl

theorem paint_cons (c : Cmd P) (cs : List (Cmd P)) (img : List (List P)) : paint (c :: cs) img = paint cs (paint [c] img) := by
  refine List.ext_getElem? fun y => ?_
  simp only [paint, List.getElem?_mapIdx]
  cases img[y]? <;> rfl

theorem paint_ok (cs : List (Cmd P)) {img : List (List P)} (h : ImgOk E img) : ImgOk E (paint cs img) := by
  refine ⟨by simp [paint, h.height], fun row hrow => ?_⟩
  obtain ⟨y, hy1, hy2⟩ := List.getElem_of_mem hrow
  simp only [paint, List.getElem_mapIdx] at hy2
  rw [← hy2]
  exact (paintAll_length cs y _).trans (h.width _ (List.getElem_mem _))

/-- The single-threaded context paints all shapes, one after the other. -/
theorem sync_ok : ∀ (jobs : List (Job P)) (b : Bufs) (img : List (List P)), (∀ j ∈ jobs, JobOk E j) → Clean E.w E.bh b → ImgOk E img →
    ∃ b', syncRun E jobs b img = some (b', paint (jobs.map (Job.cmd E)) img) ∧ Clean E.w E.bh b' := by
  intro jobs
  induction jobs with
  | nil => intro b img _ hb _; exact ⟨b, by rw [List.map_nil, paint_nil]; rfl, hb⟩
  | cons j l ih =>
    intro b img hj hb hi
    have J := hj j (by simp)
    obtain ⟨b1, img1, f1, f2, f3, f4⟩ := C50_fill_partial (F := j.cfg E) (C := j.comp) J.shape J.good J.rule J.alpha J.range hi.height
      hi.width hb
    have e : img1 = paint [j.cmd E] img := by
      refine List.ext_getElem? fun y => ?_
      simp only [paint, List.getElem?_mapIdx]
      cases hy : img[y]? with
      | none =>
        rw [List.getElem?_eq_none_iff] at hy
        exact List.getElem?_eq_none (by omega)
      | some row =>
        obtain ⟨row', r1, r2, r3⟩ := f4 y row hy
        rw [r1]
        refine congrArg some ((painted_iff (E := E) (c := j.cmd E)).1 ⟨r2, fun x hx => ?_⟩)
        show _ = some ((j.comp y).masked x row[x] (maskOf j.rule (Draw.Spec.shape (j.flat E.bh) y x) j.alpha))
        rw [flat_eq J.shape]
        exact r3 x hx
    subst e
    obtain ⟨b', g1, g2⟩ := ih b1 (paint [j.cmd E] img) (fun j hm => hj j (List.mem_cons_of_mem _ hm)) f2 (paint_ok _ hi)
    refine ⟨b', ?_, g2⟩
    have f1' : fillAnalytic ⟨E.o, E.w, E.bh, j.rule, j.alpha⟩ j.comp j.y0 j.y1 j.bands b img = some (b1, paint [j.cmd E] img) := f1
    simp only [syncRun, f1', Option.bind_eq_bind, Option.bind_some, g1]
    rw [List.map_cons, paint_cons (j.cmd E) (l.map (Job.cmd E)) img]

end Blend2D.Async
