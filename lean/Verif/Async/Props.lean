import Verif.Async.Sync

/-!
# C51: Shapes drawn by worker threads

The bands of an image are handled by any number of workers, in any order; the image is the one that a single-threaded context
draws.
-/
namespace Blend2D.Async
open Draw Draw.Spec Raster Spec

variable {P : Type} {E : Env}

/-- All workers before the batch; `bufs` are their buffers. -/
def startAll (cmds : List (Cmd P)) (bufs : List Bufs) : List Worker := bufs.mapIdx fun i b => Worker.start i cmds b

theorem start_run {cmds : List (Cmd P)} (hc : ∀ c ∈ cmds, CmdOk E c) {bufs : List Bufs} (hn : bufs.length = E.workers)
    (hb : ∀ b ∈ bufs, Clean E.w E.bh b) {img : List (List P)} (hi : ImgOk E img) : RunOk E cmds img (startAll cmds bufs) img := by
  have get : ∀ (i : Nat) w, (startAll cmds bufs)[i]? = some w → ∃ b ∈ bufs, w = Worker.start i cmds b := by
    intro i w h
    rw [startAll, List.getElem?_mapIdx, Option.map_eq_some_iff] at h
    obtain ⟨b, h1, h2⟩ := h
    exact ⟨b, List.mem_of_getElem? h1, h2.symm⟩
  refine ⟨by simp [startAll, hn], rfl, ?_, ?_, hi⟩
  · intro y row w hy hw
    obtain ⟨b, _, rfl⟩ := get _ w hw
    rw [hy, if_neg]
    show ¬ y / E.bh < y / E.bh % E.workers
    have := Nat.mod_le (y / E.bh) E.workers
    omega
  · intro i w hw
    obtain ⟨b, h1, rfl⟩ := get i w hw
    exact start_ok hc (hb b h1) i

/-- **C51** (any moment) Whatever order the workers take turns in, no worker accesses anything outside of its buffers and the
image or uses a slot before it has been initialised; at any moment every scanline is either as it was, or has been painted by all
commands in their order, depending on whether its band has been handled; and the buffers of all workers are clean.

Partial: lines that C49 excludes are excluded (`Down`), and the coverage must fit the cells. -/
theorem C51_any_moment_partial {cmds : List (Cmd P)} (hc : ∀ c ∈ cmds, CmdOk E c) {bufs : List Bufs} (hn : bufs.length = E.workers)
    (hb : ∀ b ∈ bufs, Clean E.w E.bh b) {img : List (List P)} (hh : img.length = E.h) (hw : ∀ row ∈ img, row.length = E.w)
    (turns : List Nat) (ht : ∀ i ∈ turns, i < E.workers) :
    ∃ ws img', run E cmds turns (startAll cmds bufs) img = some (ws, img') ∧ ws.length = E.workers ∧
      (∀ w ∈ ws, Clean E.w E.bh w.bufs) ∧ img'.length = img.length ∧
      ∀ (y : Nat) row w, img[y]? = some row → ws[y / E.bh % E.workers]? = some w →
        img'[y]? = some (if y / E.bh < w.cur then cmds.foldl (fun row c => paintRow c y row) row else row) := by
  obtain ⟨ws, img', h1, h2, _⟩ := run_ok hc turns _ img (start_run hc hn hb ⟨hh, hw⟩) ht
  refine ⟨ws, img', h1, h2.len, fun w hm => ?_, h2.same, h2.progress⟩
  obtain ⟨i, hi1, hi2⟩ := List.getElem_of_mem hm
  exact (h2.each i w (by rw [← hi2]; exact List.getElem?_eq_getElem hi1)).bufs

/-- **C51** (the whole image) When every worker has had enough turns for its bands, all commands have been painted, in their order,
on the whole image. -/
theorem C51_batch_partial {cmds : List (Cmd P)} (hc : ∀ c ∈ cmds, CmdOk E c) {bufs : List Bufs} (hn : bufs.length = E.workers)
    (hb : ∀ b ∈ bufs, Clean E.w E.bh b) {img : List (List P)} (hh : img.length = E.h) (hw : ∀ row ∈ img, row.length = E.w)
    (turns : List Nat) (ht : ∀ i ∈ turns, i < E.workers) (he : ∀ i < E.workers, E.bands ≤ i + turns.count i * E.workers)
    (h0 : 0 < E.workers) :
    ∃ ws, run E cmds turns (startAll cmds bufs) img = some (ws, paint cmds img) ∧ ∀ w ∈ ws, Clean E.w E.bh w.bufs := by
  have H := start_run hc hn hb (img := img) ⟨hh, hw⟩
  obtain ⟨ws, img', h1, h2, h3⟩ := run_ok hc turns _ img H ht
  have e : img' = paint cmds img := by
    refine List.ext_getElem? fun y => ?_
    rw [paint, List.getElem?_mapIdx]
    cases hy : img[y]? with
    | none =>
      rw [List.getElem?_eq_none_iff] at hy
      exact List.getElem?_eq_none (by rw [h2.same]; exact hy)
    | some row =>
      have hlt : y / E.bh % E.workers < E.workers := Nat.mod_lt _ h0
      have hl := h2.len
      have hl' := H.len
      have g1 : ws[y / E.bh % E.workers]? = some ws[y / E.bh % E.workers] := List.getElem?_eq_getElem (by omega)
      have g0 : (startAll cmds bufs)[y / E.bh % E.workers]? = some (startAll cmds bufs)[y / E.bh % E.workers] :=
        List.getElem?_eq_getElem (by omega)
      have hp := h2.progress y row _ hy g1
      obtain ⟨_, c2⟩ := h3 _ _ _ g0 g1
      have c0 : (startAll cmds bufs)[y / E.bh % E.workers].cur = y / E.bh % E.workers := by
        simp [startAll, Worker.start]
      have hd : y / E.bh < E.bands := by
        have hylt := (List.getElem?_eq_some_iff.1 hy).1
        rw [hh] at hylt
        have hp := E.bh_pos
        refine (Nat.le_div_iff_mul_le hp).2 ?_
        have := Nat.div_mul_le_self y E.bh
        show (y / E.bh + 1) * E.bh ≤ _
        rw [Nat.succ_mul]
        omega
      rw [hp, if_pos]
      · rfl
      · have := he _ hlt
        rcases c2 with c2 | c2 <;> omega
  subst e
  refine ⟨ws, h1, fun w hm => ?_⟩
  obtain ⟨i, hi1, hi2⟩ := List.getElem_of_mem hm
  exact (h2.each i w (by rw [← hi2]; exact List.getElem?_eq_getElem hi1)).bufs

/-- **C51** (threads make no difference) The shapes that a single-threaded context draws one after the other, and the same shapes
drawn as one batch by any number of workers that take turns in any order, give the same image. -/
theorem C51_same_image_partial {jobs : List (Job P)} (hj : ∀ j ∈ jobs, JobOk E j) {b : Bufs} (hb : Clean E.w E.bh b) {bufs : List Bufs}
    (hn : bufs.length = E.workers) (hbs : ∀ b ∈ bufs, Clean E.w E.bh b) {img : List (List P)} (hh : img.length = E.h)
    (hw : ∀ row ∈ img, row.length = E.w) (turns : List Nat) (ht : ∀ i ∈ turns, i < E.workers)
    (he : ∀ i < E.workers, E.bands ≤ i + turns.count i * E.workers) (h0 : 0 < E.workers) :
    ∃ ws b' img', run E (jobs.map (Job.cmd E)) turns (startAll (jobs.map (Job.cmd E)) bufs) img = some (ws, img') ∧
      syncRun E jobs b img = some (b', img') := by
  have hc : ∀ c ∈ jobs.map (Job.cmd E), CmdOk E c := by
    intro c hm
    obtain ⟨j, h1, rfl⟩ := List.mem_map.1 hm
    exact cmd_ok (hj j h1)
  obtain ⟨ws, h1, _⟩ := C51_batch_partial hc hn hbs hh hw turns ht he h0
  obtain ⟨b', h2, _⟩ := sync_ok jobs b img hj hb ⟨hh, hw⟩
  exact ⟨ws, b', _, h1, h2⟩

/-- **C51** (commands that are not tried) The quantized coordinates of commands never hide a command in a band that it covers. -/
theorem C51_quantized {c : Cmd P} (hc : CmdOk E c) {id : Nat} (hid : id < E.bands) (h : E.q id < c.q E) {y : Nat} (x : Int)
    (hy : y < (id + 1) * E.bh) : Draw.Spec.shape c.edges y x = 0 := by
  have := quantized hc hid h
  exact hc.above x (by omega)

/-! ## A batch -/

/-- An image of 8 by 9 pixels, bands of 4 scanlines (the last one reaches below the image), and two workers. -/
def sampleEnv : Env := ⟨.lsb, 8, 9, 2, 2⟩

example : sampleEnv.bands = 3 ∧ sampleEnv.shift = 2 := by decide

/-- The shape of C50, over two bands. -/
def sampleJob : Job UInt32 :=
  ⟨BitVec.allOnes 32, 255, fun _ => Fill.ofOp .srcCopy fun _ => 0xFFFFFFFF, 100, 1300, sample ++ [[]]⟩

/-- The hypotheses are met (here in an image of 8 scanlines). -/
example : JobOk (P := UInt32) ⟨.lsb, 8, 8, 2, 2⟩
    ⟨BitVec.allOnes 32, 255, fun _ => Fill.ofOp .srcCopy fun _ => 0xFFFFFFFF, 100, 1300, sample⟩ :=
  ⟨sample_shape .lsb (BitVec.allOnes 32) 255,
    fun _ => Fill.good_ofOp _ _ fun _ => by unfold Pixel.Spec.Premultiplied; decide, Or.inl rfl, by decide, sample_range⟩

/-- One worker is finished before the other one starts, or they take turns. -/
example : ∀ turns ∈ [[0, 0, 1], [1, 0, 0], [0, 1, 0]],
    ((run sampleEnv [sampleJob.cmd sampleEnv] turns (startAll [sampleJob.cmd sampleEnv] [sampleBufs, sampleBufs])
      (List.replicate 9 (List.replicate 8 0xFF000000))).map fun r => r.2.map fun row => row.map fun p => (p &&& 0xFF).toNat) =
    some [[34, 151, 155, 79, 0, 0, 0, 0], [0, 211, 255, 131, 0, 0, 0, 0], [0, 211, 255, 131, 0, 0, 0, 0],
      [0, 211, 255, 131, 0, 0, 0, 0], [0, 211, 255, 131, 0, 0, 0, 0], [0, 15, 19, 9, 0, 0, 0, 0],
      [0, 0, 0, 0, 0, 0, 0, 0], [0, 0, 0, 0, 0, 0, 0, 0], [0, 0, 0, 0, 0, 0, 0, 0]] := by
  decide +kernel

end Blend2D.Async
