import Verif.Draw.Model

/-!
# Shapes drawn by worker threads (`blend2d/raster/rendercommandprocasync_p.h`, `workerproc.cpp`)

In a multi-threaded context a shape is a command of a batch.  Each worker goes through its own bands of the image, from top to
bottom, and in each band through all commands of the batch that are not done and may have started.  What a command needs in the
next band of the same worker is kept in a slot: the edge vectors that have not started, and the active edges.

Simplified: linked lists are lists, the pool of active edges and its allocation failure are left out, pointers into rows are
positions.  `none` is an access outside of the buffers or the image, or the use of a slot that has not been initialised.
Only commands that fill shapes are modelled.  The bands of different workers are different scanlines, so a worker's band is
one step here.
-/
namespace Blend2D.Async
open Draw Raster
open BitOps (Order)
open Fill (Comp Row Args)

/-- `Rasterize:` (rendercommandprocasync_p.h:346-384): the line in `s` ends in the band, and `f` is what follows it, or the
edge is saved. -/
def line (e : Int) (neg : Bool) (s : St) (rest : List Pt) (f : Option Act × List Ev) : Option Act × List Ev :=
  let r := rasterize neg (some e) s
  if r.1 then (f.1, r.2.2 ++ f.2) else (some ⟨neg, r.2.1, rest⟩, r.2.2)

/-- `EdgeDone:` (rendercommandprocasync_p.h:351-374): the lines after one that has ended.  `t` is `bandY0`, `e` is
`_band_end`. -/
def follow (t e : Int) (neg : Bool) : List Pt → Option Act × List Ev
  | p :: q :: l =>
    if q.y ≤ 256 * t then follow t e neg (q :: l)
    else
      match prepare p q with
      | none => follow t e neg (q :: l)
      | some s =>
        if s.ey0 > e then (some ⟨neg, s, q :: l⟩, [])
        else if s.ey0 < t then line e neg (advanceToY s t) (q :: l) (follow t e neg (q :: l))
        else line e neg s (q :: l) (follow t e neg (q :: l))
  | _ => (none, [])

/-- An active edge (rendercommandprocasync_p.h:335-385): bands may have been skipped. -/
def resume (t e : Int) (a : Act) : Option Act × List Ev :=
  if a.st.ey1 < t then follow t e a.neg a.rest
  else line e a.neg (advanceToY a.st t) a.rest (follow t e a.neg a.rest)

/-- An edge vector that has not been active (rendercommandprocasync_p.h:412-438). -/
def enter (t e : Int) (neg : Bool) : List Pt → Option Act × List Ev
  | p :: q :: l =>
    if q.y ≤ 256 * t then enter t e neg (q :: l)
    else
      match prepare p q with
      | none => enter t e neg (q :: l)
      | some s =>
        let s := advanceToY s t
        if s.ey1 ≤ e then
          let r := rasterize neg none s
          let f := enter t e neg (q :: l)
          (f.1, r.2.2 ++ f.2)
        else if s.ey0 > e then (some ⟨neg, s, q :: l⟩, [])
        else if s.ey0 < t then line e neg (advanceToY s t) (q :: l) (follow t e neg (q :: l))
        else line e neg s (q :: l) (follow t e neg (q :: l))
  | _ => (none, [])

/-- The `y` coordinate of the first point of a vector (`edges->pts[0].y`); vectors are not empty. -/
def firstY (v : Vec) : Int := match v.pts with | p :: _ => p.y | [] => 0

/-- The `y` coordinate of the last point of a vector (`end[-1].y`). -/
def lastY (v : Vec) : Int := match v.pts.getLast? with | some p => p.y | none => 0

/-- The edge vectors that have not been active (rendercommandprocasync_p.h:398-440): those that start in the band or above it are
drawn or dropped, the rest is kept. -/
def news (t e : Int) : List Vec → List Vec × List (Option Act × List Ev)
  | [] => ([], [])
  | v :: vs =>
    if firstY v ≥ 256 * (e + 1) then (v :: vs, [])
    else
      let r := news t e vs
      if lastY v ≤ 256 * t then r
      else (r.1, enter t e v.neg v.pts :: r.2)

/-- The state of a command (`SlotData::Analytic`). -/
structure Slot where
  edges : List Vec
  acts : List Act

/-- The edges of a command in a band (rendercommandprocasync_p.h:329-449): what is kept, and what is written. -/
def bandEdges (t e : Int) (s : Slot) : Slot × List Ev :=
  let n := news t e s.edges
  let rs := s.acts.map (resume t e) ++ n.2
  (⟨n.1, rs.filterMap Prod.fst⟩, rs.flatMap Prod.snd)

variable {P : Type}

/-- What a batch needs: bit order, image size, band height (`2 ^ log`), and the number of workers. -/
structure Env where
  o : Order
  w : Nat
  h : Nat
  log : Nat
  workers : Nat

/-- `band_height` (a power of two, rastercontext.cpp:4154-4192). -/
def Env.bh (E : Env) : Nat := 2 ^ E.log

/-- `band_count` (rastercontext.cpp:4223). -/
def Env.bands (E : Env) : Nat := (E.h + E.bh - 1) / 2 ^ E.log

/-- `calculate_command_quantization_shift` (rastercontext.cpp:4195-4201); `32 - clz(n)` is `log2 n + 1`. -/
def Env.shift (E : Env) : Nat := max E.log (max (Nat.log2 (E.bh * E.bands) + 1) 8 - 8)

/-- A command that fills a shape (rendercommand_p.h, `init_fill_analytic`): the source, the upper bound of the edges (24.8 fixed
point), and the edge vectors. -/
structure Cmd (P : Type) where
  rule : BitVec 32
  alpha : Nat
  comp : Nat → Comp P
  y0 : Nat
  edges : List Vec

/-- The configuration of the fill of a command. -/
def Cmd.cfg (E : Env) (c : Cmd P) : Cfg := ⟨E.o, E.w, E.bh, c.rule, c.alpha⟩

/-- `qy0`, eight bits (rastercontext.cpp:2765, renderjobproc_p.h:118). -/
def Cmd.q (E : Env) (c : Cmd P) : Nat := c.y0 / 2 ^ (E.shift + 8) % 256

/-- `bandQy0`, eight bits (workerproc.cpp:195). -/
def Env.q (E : Env) (id : Nat) : Nat := id * E.bh / 2 ^ E.shift % 256

/-- A scanline of the buffers with its pixels; the last band may reach below the image, where there are no pixels. -/
def rowAt (b : Bufs) (img : List (List P)) (off i : Nat) : Option (Row P) := do
  let bits ← b.bits[i]?
  let cells ← b.cells[i]?
  some { bits := bits, cells := cells, dst := (img[off + i]?).getD [], pos := 0 }

/-- The first `n` scanlines of the buffers. -/
def rowsAt (b : Bufs) (img : List (List P)) (off : Nat) : Nat → Option (List (Row P))
  | 0 => some []
  | n + 1 => do
    let rs ← rowsAt b img off n
    let r ← rowAt b img off n
    some (rs ++ [r])

/-- The fill of a band (rendercommandprocasync_p.h:451-467), always `n = band_height` scanlines. -/
def fillBand (F : Cfg) (C : Nat → Comp P) (off n : Nat) (b : Bufs) (img : List (List P)) : Option (Bufs × List (List P)) :=
  if b.minX ≤ b.maxX then do
    let A : Args := { rule := F.rule, alpha := F.alpha, xEnd := min F.w (align4 (b.maxX + 1)) }
    let rows ← rowsAt b img off n
    let rows ← Fill.fill F.o A C off rows
    some ({ b with bits := rows.map Row.bits ++ b.bits.drop n, cells := rows.map Row.cells ++ b.cells.drop n },
      (img.take off ++ rows.map Row.dst ++ img.drop (off + n)).take img.length)
  else some (b, img)

/-- What a worker knows of a command: its pending bit, and its slot, which is not initialised at the beginning. -/
structure CmdSt where
  pending : Bool
  slot : Option Slot

/-- The end of `fill_analytic`, in a band that the command has reached (rendercommandprocasync_p.h:281-469). -/
def drawCmd (E : Env) (c : Cmd P) (id : Nat) (s : Slot) (b : Bufs) (img : List (List P)) :
    Option (CmdSt × Bufs × List (List P)) := do
  let off := id * E.bh
  let r := bandEdges off (((id + 1) * E.bh : Nat) - 1) s
  let b ← writes E.o off { b with minX := 2 ^ 32 - 1, maxX := 0 } r.2
  let (b, img) ← fillBand (c.cfg E) c.comp off E.bh b img
  some (⟨!(r.1.edges.isEmpty && r.1.acts.isEmpty), some r.1⟩, b, img)

/-- `fill_analytic` (rendercommandprocasync_p.h:239-470); `prev` is `prevBandFy1`. -/
def fillCmd (E : Env) (c : Cmd P) (id : Nat) (prev : Int) (slot : Option Slot) (b : Bufs) (img : List (List P)) :
    Option (CmdSt × Bufs × List (List P)) :=
  if prev < c.y0 then
    let s : Slot := ⟨c.edges, []⟩
    if c.edges.isEmpty then some (⟨false, some s⟩, b, img)
    else if c.y0 ≥ 256 * ((id + 1) * E.bh) then some (⟨true, some s⟩, b, img)
    else drawCmd E c id s b img
  else do
    let s ← slot
    if c.y0 ≥ 256 * ((id + 1) * E.bh) then some (⟨true, some s⟩, b, img)
    else drawCmd E c id s b img

/-- One command of a batch in a band, if it is pending and may have started (workerproc.cpp:224-232; the vectorised search for
such commands, lines 80-160 and 212-222, is left out). -/
def tryCmd (E : Env) (c : Cmd P) (id : Nat) (prev : Int) (s : CmdSt) (b : Bufs) (img : List (List P)) :
    Option (CmdSt × Bufs × List (List P)) :=
  if s.pending = true ∧ E.q id ≥ c.q E then fillCmd E c id prev s.slot b img else some (s, b, img)

/-- `process_band` (workerproc.cpp:166-255): the commands of the batch in order. -/
def processBand (E : Env) (id : Nat) (prev : Int) :
    List (Cmd P) → List CmdSt → Bufs → List (List P) → Option (List CmdSt × Bufs × List (List P))
  | c :: cs, s :: ss, b, img => do
    let (s, b, img) ← tryCmd E c id prev s b img
    let (ss, b, img) ← processBand E id prev cs ss b img
    some (s :: ss, b, img)
  | _, _, b, img => some ([], b, img)

/-- A worker in `process_commands` (workerproc.cpp:260-297): `cur` and `prev` are `current_band_id` and `prev_band_id`. -/
structure Worker where
  cur : Nat
  prev : Nat
  cmds : List CmdSt
  bufs : Bufs

/-- A worker before its first band; `b` are its zeroed buffers. -/
def Worker.start (id : Nat) (cmds : List (Cmd P)) (b : Bufs) : Worker :=
  ⟨id, id, cmds.map fun _ => ⟨true, none⟩, b⟩

/-- `prevBandFy1` (workerproc.cpp:188-193). -/
def Worker.prevFy (E : Env) (w : Worker) : Int :=
  if w.cur = w.prev then -1 else 256 * ((w.prev + 1) * E.bh : Nat) - 1

/-- The next band of a worker (workerproc.cpp:284-295; `consecutive_band_count` is 1). -/
def Worker.step (E : Env) (cmds : List (Cmd P)) (w : Worker) (img : List (List P)) : Option (Worker × List (List P)) :=
  if w.cur < E.bands then do
    let (cs, b, img) ← processBand E w.cur (w.prevFy E) cmds w.cmds w.bufs img
    some (⟨w.cur + E.workers, w.cur, cs, b⟩, img)
  else some (w, img)

/-- A shape as the edge builder leaves it: bounds (24.8 fixed point) and edge vectors by band. -/
structure Job (P : Type) where
  rule : BitVec 32
  alpha : Nat
  comp : Nat → Comp P
  y0 : Nat
  y1 : Nat
  bands : List (List Vec)

/-- `flatten_edge_links` (edgestorage_p.h:153-177, with `bandStartFromBBox` and `bandEndFromBBox`, lines 141-151): the lists of the
bands from the first to the last one are linked. -/
def Job.flat (bh : Nat) (j : Job P) : List Vec :=
  let start := j.y0 / (256 * bh)
  let stop := min (j.y1 / (256 * bh) + 1) j.bands.length
  ((j.bands.drop start).take (max 1 (stop - start))).flatten

/-- The command of a shape (rastercontext.cpp:2753-2782, `fill_clipped_edges<kAsync>`; renderjobproc_p.h:113-123). -/
def Job.cmd (E : Env) (j : Job P) : Cmd P := ⟨j.rule, j.alpha, j.comp, j.y0, j.flat E.bh⟩

/-- The same shapes in a single-threaded context, one after the other (rastercontext.cpp:2735-2751, `fill_clipped_edges<kSync>`). -/
def syncRun (E : Env) : List (Job P) → Bufs → List (List P) → Option (Bufs × List (List P))
  | [], b, img => some (b, img)
  | j :: l, b, img => do
    let (b, img) ← fillAnalytic ⟨E.o, E.w, E.bh, j.rule, j.alpha⟩ j.comp j.y0 j.y1 j.bands b img
    syncRun E l b img

/-- All workers, in any order: the list says which worker handles its next band. -/
def run (E : Env) (cmds : List (Cmd P)) : List Nat → List Worker → List (List P) → Option (List Worker × List (List P))
  | [], ws, img => some (ws, img)
  | i :: l, ws, img => do
    let w ← ws[i]?
    let (w, img) ← w.step E cmds img
    run E cmds l (ws.set i w) img

end Blend2D.Async
