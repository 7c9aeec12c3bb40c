import Verif.Arena.Lemmas
/-! C61: the arena allocator. -/
namespace Blend2D.Arena
open Spec List

/-- After every history, memory that is allocated is aligned, inside of a block the arena owns, and apart from everything
that is allocated.  `Call` excludes larger alignments and large sizes that are no multiples of 16: see
`C61_size_counterexample`. -/
theorem C61_alloc_partial {s : Arena} {live : List (Nat × Nat)} (h : Reach s live) {size alignment : Nat} {mem : Option Nat}
    (hc : Call s size alignment mem) {p : Nat} (hp : (alloc s size alignment mem).2 = some p) :
    p % alignment = 0 ∧ (0 < size → (∃ b ∈ owned (alloc s size alignment mem).1, b.data ≤ p ∧ p + size ≤ b.stop) ∧
      ∀ r ∈ live, 0 < r.2 → Apart p size r.1 r.2) := by
  have := (Reach.inv h).alloc hc
  rw [hp] at this
  exact this.2

/-- Everything that is allocated stays inside of blocks the arena owns, until it is cleared or reset. -/
theorem C61_live_partial {s : Arena} {live : List (Nat × Nat)} (h : Reach s live) :
    ∀ r ∈ live, 0 < r.2 → ∃ b ∈ owned s, b.data ≤ r.1 ∧ r.1 + r.2 ≤ b.stop := by
  intro r hr h0
  have hi := Reach.inv h
  rcases hi.live r hr h0 with ⟨b, hb, h1, h2⟩ | ⟨b, hb, h1, h2⟩
  · exact ⟨b, mem_owned.2 (Or.inl hb), h1, h2⟩
  · have := hi.cur
    rw [hb] at this
    simp only at this
    exact ⟨b, mem_owned.2 (Or.inr (Or.inl hb)), h1, by unfold Block.stop Block.data; omega⟩

/-- All allocations of a history are apart from each other. -/
theorem C61_apart_partial {s : Arena} {live : List (Nat × Nat)} (h : Reach s live) :
    live.Pairwise fun x y => 0 < x.2 → 0 < y.2 → Apart x.1 x.2 y.1 y.2 := by
  induction h with
  | init => exact List.Pairwise.nil
  | @alloc s live size alignment mem hr hc ih =>
    cases hp : (Arena.alloc s size alignment mem).2 with
    | none => exact ih
    | some p =>
      refine List.pairwise_cons.2 ⟨?_, ih⟩
      intro y hy h1 h2
      exact ((C61_alloc_partial hr hc hp).2 h1).2 y hy h2
  | ensure _ _ _ _ ih => exact ih
  | restore _ _ _ ih => exact ih
  | clear => exact List.Pairwise.nil
  | reset => exact List.Pairwise.nil

/-- The blocks an arena owns have nothing in common. -/
theorem C61_blocks_partial {s : Arena} {live : List (Nat × Nat)} (h : Reach s live) :
    (owned s).Pairwise fun x y => Apart x.addr (24 + x.size) y.addr (24 + y.size) := (Reach.inv h).sep

/-- An allocation fails only if `malloc` fails or the size is almost that of the address space, and then nothing
changes. -/
theorem C61_fails_partial {s : Arena} {live : List (Nat × Nat)} (h : Reach s live) {size alignment : Nat} {mem : Option Nat}
    (hc : Call s size alignment mem) (hp : (alloc s size alignment mem).2 = none) :
    (alloc s size alignment mem).1 = s ∧ (mem = none ∨ 2 ^ 64 - 128 < size) := by
  have hi := Reach.inv h
  have := hi.alloc hc
  rw [hp] at this
  obtain ⟨h1, h2⟩ := this
  refine ⟨h1, h2.imp id ?_⟩
  intro hr
  have hA := align_cases hi.shift
  unfold request at hr
  rw [need_eq hc.1 hA] at hr
  simp only at hr
  split at hr
  · split at hr
    · rcases hA with h' | h' | h' <;> simp only [h'] at * <;> omega
    · cases hr
  · cases hr

theorem apart_addr {x y : Block} (h : Sep x y) : x.addr ≠ y.addr := by
  unfold Sep Apart at h; omega

/-- A reset frees every block once, but the static one, which is the only one the arena owns then. -/
theorem C61_reset_partial {s : Arena} {live : List (Nat × Nat)} (h : Reach s live) :
    (reset s).2.Nodup ∧ (owned s).map (·.addr) ~ (owned (reset s).1).map (·.addr) ++ (reset s).2 ∧
      (s.static = false → owned (reset s).1 = []) ∧
      (s.static = true → owned s ≠ [] → ∃ f, (s.cur.toList ++ s.prevs).getLast? = some f ∧ owned (reset s).1 = [f]) := by
  have hi := Reach.inv h
  have hnd : ((owned s).map (·.addr)).Nodup := by
    rw [List.nodup_iff_pairwise_ne, List.pairwise_map]
    exact hi.sep.imp apart_addr
  have hcur := hi.cur
  cases hb : s.cur with
  | none =>
    rw [hb] at hcur
    have ho : owned s = [] := by simp [owned, hb, hcur.1, hcur.2.1]
    have hr : reset s = (s, []) := by simp only [reset, hb]
    rw [hr]
    exact ⟨List.nodup_nil, by simp, fun _ => ho, fun _ hn => absurd ho hn⟩
  | some b =>
    have hperm : (owned s).map (·.addr) ~ (b :: s.prevs).map (·.addr) ++ s.nexts.map (·.addr) := by
      rw [← List.map_append]
      apply List.Perm.map
      unfold owned
      rw [hb]
      exact List.Perm.append_right _ List.perm_append_comm
    by_cases hst : s.static = true
    · obtain ⟨f, hf⟩ : ∃ f, (b :: s.prevs).getLast? = some f := ⟨_, List.getLast?_cons⟩
      have hr : reset s = ({ s with prevs := [], cur := none, nexts := [], ptr := s.zero, stop := s.zero, count := 0 }.assign f [],
          (b :: s.prevs).dropLast.map (·.addr) ++ s.nexts.map (·.addr)) := by
        simp only [reset, hb, hst, if_true, hf]
      have ho : owned (reset s).1 = [f] := by rw [hr]; simp [owned, Arena.assign]
      have hsplit : (b :: s.prevs) = (b :: s.prevs).dropLast ++ [f] := by
        have hne : b :: s.prevs ≠ [] := by simp
        have := List.dropLast_concat_getLast hne
        rw [List.getLast?_eq_some_getLast hne] at hf
        simp only [Option.some.injEq] at hf
        rw [hf] at this
        exact this.symm
      have hp : (owned s).map (·.addr) ~ (owned (reset s).1).map (·.addr) ++ (reset s).2 := by
        rw [ho, hr]
        refine hperm.trans ?_
        simp only
        rw [← List.append_assoc]
        refine List.Perm.append_right _ ?_
        conv_lhs => rw [hsplit]
        rw [List.map_append]
        exact List.perm_append_comm
      refine ⟨(List.nodup_append.1 (hp.nodup_iff.1 hnd)).2.1, hp, fun h => (by rw [hst] at h; cases h), fun _ _ => ⟨f, ?_, ho⟩⟩
      simpa using hf
    · have hst' : s.static = false := by simpa using hst
      have hr : reset s = ({ s with prevs := [], cur := none, nexts := [], ptr := s.zero, stop := s.zero, count := 0 },
          (b :: s.prevs).map (·.addr) ++ s.nexts.map (·.addr)) := by
        simp only [reset, hb, hst', Bool.false_eq_true, if_false]
      have ho : owned (reset s).1 = [] := by rw [hr]; simp [owned]
      have hp : (owned s).map (·.addr) ~ (owned (reset s).1).map (·.addr) ++ (reset s).2 := by
        rw [ho, hr]; exact hperm
      refine ⟨?_, hp, fun _ => ho, fun h => absurd h hst⟩
      exact (List.nodup_append.1 (hp.nodup_iff.1 hnd)).2.1

/-- Clearing frees nothing: the arena owns the same blocks. -/
theorem C61_clear_partial {s : Arena} {live : List (Nat × Nat)} (_ : Reach s live) : owned (clear s) ~ owned s := by
  have hperm : (owned s) ~ (s.prevs.reverse ++ s.cur.toList ++ s.nexts) := by
    unfold owned
    exact List.Perm.append_right _ (List.Perm.append_right _ (List.reverse_perm _).symm)
  unfold clear
  cases hl : s.prevs.reverse ++ s.cur.toList ++ s.nexts with
  | nil => exact List.Perm.refl _
  | cons b rest =>
    rw [hl] at hperm
    refine List.Perm.trans ?_ hperm.symm
    simp [owned, Arena.assign]

theorem since_reach {s0 s : Arena} {live : List (Nat × Nat)} (h0 : Reach s0 []) (h : Since s0 s live) : Reach s live := by
  induction h with
  | start => exact h0
  | alloc size alignment mem _ hc ih => exact Reach.alloc size alignment mem ih hc
  | ensure size mem _ hc ih => exact Reach.ensure size mem ih hc
  | restore _ hroom hg ih => exact Reach.restore ih hroom hg
  | clear _ ih => exact Reach.clear ih
  | reset _ ih => exact Reach.reset ih

/-- The first block of an arena is the static one. -/
def First (f : Block) (s : Arena) : Prop := s.static = true ∧ (s.cur.toList ++ s.prevs).getLast? = some f

theorem getLast?_insert {f b : Block} {c : Option Block} {l : List Block} (h : (c.toList ++ l).getLast? = some f) :
    ((some b).toList ++ (c.toList ++ l)).getLast? = some f := by
  cases hl : c.toList ++ l with
  | nil => rw [hl] at h; cases h
  | cons x xs => rw [hl] at h; simpa using h

theorem First.grow {f : Block} {s : Arena} (h : First f s) (size alignment : Nat) (mem : Option Nat) :
    First f (grow s size alignment mem).1 := by
  unfold Arena.grow
  split
  · exact ⟨h.1, getLast?_insert h.2⟩
  · exact h

theorem First.congr {f : Block} {s t : Arena} (h : First f s) (h1 : t.static = s.static) (h2 : t.cur = s.cur)
    (h3 : t.prevs = s.prevs) : First f t := by
  unfold First
  rw [h1, h2, h3]
  exact h

theorem First.insert {f b : Block} {s t : Arena} (h : First f s) (h1 : t.static = s.static) (h2 : t.cur = some b)
    (h3 : t.prevs = s.cur.toList ++ s.prevs) : First f t := by
  unfold First
  rw [h1, h2, h3]
  exact ⟨h.1, getLast?_insert h.2⟩

theorem First.slow {f : Block} {s : Arena} (h : First f s) (size alignment : Nat) (mem : Option Nat) :
    First f (slow s size alignment mem).1 := by
  cases hn : s.nexts with
  | nil => rw [slow_nil hn]; exact h.grow size alignment mem
  | cons b rest =>
    by_cases hd : size ≤ diff b.stop (alignUp b.data (s.need alignment))
    · have : (Arena.slow s size alignment mem).1 =
          { s with prevs := s.cur.toList ++ s.prevs, cur := some b, nexts := rest,
                   ptr := alignUp b.data (s.need alignment) + size, stop := b.stop } := by
        simp only [Arena.slow, hn, if_pos hd]
      rw [this]
      exact h.insert (b := b) rfl rfl rfl
    · have : Arena.slow s size alignment mem = Arena.grow s size alignment mem := by
        simp only [Arena.slow, hn, if_neg hd]
      rw [this]
      exact h.grow size alignment mem

theorem First.alloc {f : Block} {s : Arena} (h : First f s) (size alignment : Nat) (mem : Option Nat) :
    First f (alloc s size alignment mem).1 := by
  by_cases hd : size > diff s.stop (alignUp s.ptr alignment)
  · have : Arena.alloc s size alignment mem = Arena.slow s size alignment mem := by
      simp only [Arena.alloc, if_pos hd]
    rw [this]
    exact h.slow size alignment mem
  · have : (Arena.alloc s size alignment mem).1 = { s with ptr := alignUp s.ptr alignment + size } := by
      simp only [Arena.alloc, if_neg hd]
    rw [this]
    exact h.congr rfl rfl rfl

theorem First.ensure {f : Block} {s : Arena} (h : First f s) (size : Nat) (mem : Option Nat) :
    First f (ensure s size mem).1 := by
  by_cases hr : size ≤ remaining s
  · rw [ensure_room hr]; exact h
  · rw [ensure_slow hr]; exact h.slow 0 1 mem

theorem First.restore {f : Block} {s t : Arena} {live lt : List (Nat × Nat)} (h : First f s) (hs : Inv s live)
    (ht : Inv t lt) (he : Ext s t) (hroom : s.ptr < s.stop) : First f (restore t s.ptr) := by
  obtain ⟨c, l, h1, h2, h3⟩ := restore_eq hs ht he hroom
  rw [h3]
  exact h.congr he.2.2.2.2 h1.symm rfl

theorem First.clear {f : Block} {s : Arena} (h : First f s) : First f (clear s) := by
  have h2 := h.2
  have hl : ∃ rest, s.prevs.reverse ++ s.cur.toList = f :: rest := by
    have : (s.prevs.reverse ++ s.cur.toList).head? = some f := by
      rw [← h2, ← List.head?_reverse, List.reverse_append]
      cases s.cur <;> rfl
    cases hc : s.prevs.reverse ++ s.cur.toList with
    | nil => rw [hc] at this; cases this
    | cons x xs => rw [hc] at this; simp only [List.head?_cons, Option.some.injEq] at this; exact ⟨xs, by rw [this]⟩
  obtain ⟨rest, hr⟩ := hl
  have : Arena.clear s = s.assign f (rest ++ s.nexts) := by
    unfold Arena.clear
    rw [hr]
    rfl
  rw [this]
  exact ⟨h.1, rfl⟩

theorem First.reset {f : Block} {s : Arena} (h : First f s) : First f (reset s).1 := by
  have h2 := h.2
  unfold Arena.reset
  split
  · exact h
  · next b hb =>
    rw [hb] at h2
    have h3 : (b :: s.prevs).getLast? = some f := by simpa using h2
    simp only [h.1, if_true, h3]
    exact ⟨rfl, rfl⟩

/-- The static memory an arena begins with is one of its blocks after every history, with its size, and a reset never
frees it. -/
theorem C61_static_partial {zero blockSize blockAlignment a n : Nat}
    (h0 : Reach (init zero blockSize blockAlignment (some (a, n))) []) {s : Arena} {live : List (Nat × Nat)}
    (h : Since (init zero blockSize blockAlignment (some (a, n))) s live) :
    ⟨a, n - 24⟩ ∈ owned s ∧ a ∉ (reset s).2 := by
  have hf : First ⟨a, n - 24⟩ s := by
    induction h with
    | start => exact ⟨rfl, rfl⟩
    | alloc size alignment mem _ _ ih => exact ih.alloc size alignment mem
    | ensure size mem _ _ ih => exact ih.ensure size mem
    | restore hp hroom hg ih =>
      have hi := Reach.inv (since_reach h0 hp)
      obtain ⟨⟨m, hm⟩, he⟩ := Grown.inv hg hi
      exact ih.restore hi hm he hroom
    | clear _ ih => exact ih.clear
    | reset _ ih => exact ih.reset
  have hr := since_reach h0 h
  have hm : ⟨a, n - 24⟩ ∈ owned s := by
    have := List.mem_of_getLast? hf.2
    unfold owned
    simp only [List.mem_append] at this ⊢
    tauto
  refine ⟨hm, ?_⟩
  obtain ⟨_, hp, _, hs⟩ := C61_reset_partial hr
  obtain ⟨f, hl, ho⟩ := hs hf.1 (List.ne_nil_of_mem hm)
  rw [hf.2] at hl
  simp only [Option.some.injEq] at hl
  have hnd : ((owned s).map (·.addr)).Nodup := by
    rw [List.nodup_iff_pairwise_ne, List.pairwise_map]
    exact (Reach.inv hr).sep.imp apart_addr
  have := hp.nodup_iff.1 hnd
  rw [ho, ← hl] at this
  simp only [List.map_cons, List.map_nil, List.cons_append, List.nil_append, List.nodup_cons] at this
  exact this.1

/-- The blocks in the order of their links. -/
def chain (s : Arena) : List Block := s.prevs.reverse ++ s.cur.toList ++ s.nexts

/-- All blocks but the first one are large. -/
def Big (s : Arena) : Prop := 11 ≤ s.minShift ∧ ∀ b ∈ (chain s).tail, 1992 ≤ b.size

theorem request_big {s : Arena} {size a n : Nat} (hs : 11 ≤ s.minShift) (h : request s size a = some n) : 2016 ≤ n := by
  unfold request at h
  obtain ⟨d1, d2, d3⟩ := default_ge (show 11 ≤ s.count + s.minShift by omega)
  generalize 2 ^ min (s.count + s.minShift) 25 = D at *
  simp only at h
  split at h
  · split at h
    · cases h
    · simp only [Option.some.injEq] at h
      omega
  · simp only [Option.some.injEq] at h
    omega

theorem Big.congr {s t : Arena} (h : Big s) (h1 : t.minShift = s.minShift) (h2 : chain t = chain s) : Big t := by
  unfold Big
  rw [h1, h2]
  exact h

theorem Big.grow {s : Arena} {live : List (Nat × Nat)} (h : Big s) (hi : Inv s live) (size alignment : Nat)
    (mem : Option Nat) : Big (grow s size alignment mem).1 := by
  cases hr : request s size alignment with
  | none => simp only [Arena.grow, hr]; exact h
  | some n =>
    cases mem with
    | none => simp only [Arena.grow, hr]; exact h
    | some a =>
      have hn := request_big h.1 hr
      simp only [Arena.grow, hr]
      refine ⟨h.1, ?_⟩
      have hcur := hi.cur
      have hb := h.2
      intro b hm
      unfold chain at hm hb
      cases hc : s.cur with
      | none =>
        rw [hc] at hcur
        simp [hc, hcur.1, hcur.2.1] at hm
      | some c =>
        rw [hc] at hb
        simp only [hc, Option.toList_some, List.reverse_append, List.reverse_cons, List.reverse_nil, List.nil_append,
          List.append_assoc, List.cons_append] at hm hb
        cases hp : s.prevs.reverse with
        | nil =>
          rw [hp] at hm hb
          simp only [List.nil_append, List.tail_cons, List.mem_cons] at hm hb
          rcases hm with rfl | hm
          · simp only; omega
          · exact hb b hm
        | cons y ys =>
          rw [hp] at hm hb
          simp only [List.cons_append, List.tail_cons, List.mem_append, List.mem_cons] at hm hb
          rcases hm with hm | rfl | rfl | hm
          · exact hb b (by tauto)
          · exact hb b (by tauto)
          · simp only; omega
          · exact hb b (by tauto)

theorem Big.slow {s : Arena} {live : List (Nat × Nat)} (h : Big s) (hi : Inv s live) (size alignment : Nat)
    (mem : Option Nat) : Big (slow s size alignment mem).1 := by
  cases hn : s.nexts with
  | nil => rw [slow_nil hn]; exact h.grow hi size alignment mem
  | cons b rest =>
    by_cases hd : size ≤ diff b.stop (alignUp b.data (s.need alignment))
    · have : (Arena.slow s size alignment mem).1 =
          { s with prevs := s.cur.toList ++ s.prevs, cur := some b, nexts := rest,
                   ptr := alignUp b.data (s.need alignment) + size, stop := b.stop } := by
        simp only [Arena.slow, hn, if_pos hd]
      rw [this]
      refine h.congr rfl ?_
      unfold chain
      rw [hn]
      cases s.cur <;> simp
    · have : Arena.slow s size alignment mem = Arena.grow s size alignment mem := by
        simp only [Arena.slow, hn, if_neg hd]
      rw [this]
      exact h.grow hi size alignment mem

theorem Big.alloc {s : Arena} {live : List (Nat × Nat)} (h : Big s) (hi : Inv s live) (size alignment : Nat)
    (mem : Option Nat) : Big (alloc s size alignment mem).1 := by
  by_cases hd : size > diff s.stop (alignUp s.ptr alignment)
  · have : Arena.alloc s size alignment mem = Arena.slow s size alignment mem := by
      simp only [Arena.alloc, if_pos hd]
    rw [this]
    exact h.slow hi size alignment mem
  · have : (Arena.alloc s size alignment mem).1 = { s with ptr := alignUp s.ptr alignment + size } := by
      simp only [Arena.alloc, if_neg hd]
    rw [this]
    exact h.congr rfl rfl

theorem Big.clear {s : Arena} (h : Big s) : Big (clear s) := by
  have hb := h.2
  unfold chain at hb
  unfold Arena.clear
  cases hl : s.prevs.reverse ++ s.cur.toList ++ s.nexts with
  | nil => exact h
  | cons b rest =>
    rw [hl] at hb
    refine ⟨h.1, ?_⟩
    simpa [chain, Arena.assign] using hb

theorem Big.reset {s : Arena} (h : Big s) : Big (reset s).1 := by
  unfold Arena.reset
  split
  · exact h
  · next b hb =>
    simp only
    split
    · simp only
      split
      · exact ⟨h.1, by simp [chain, Arena.assign]⟩
      · exact ⟨h.1, by simp [chain]⟩
    · exact ⟨h.1, by simp [chain]⟩

theorem Big.ensure {s : Arena} {live : List (Nat × Nat)} (h : Big s) (hi : Inv s live) (size : Nat) (mem : Option Nat) :
    Big (ensure s size mem).1 := by
  by_cases hd : size ≤ remaining s
  · rw [ensure_room hd]; exact h
  · rw [ensure_slow hd]; exact h.slow hi 0 1 mem

theorem Big.restore {s t : Arena} {live lt : List (Nat × Nat)} (h : Big t) (hs : Inv s live)
    (ht : Inv t lt) (he : Ext s t) (hroom : s.ptr < s.stop) : Big (restore t s.ptr) := by
  obtain ⟨c, l, h1, h2, h3⟩ := restore_eq hs ht he hroom
  rw [h3]
  refine h.congr rfl ?_
  unfold chain
  have := congrArg List.reverse h2
  rw [List.reverse_append, List.reverse_append, List.reverse_cons] at this
  have hr : t.cur.toList.reverse = t.cur.toList := by cases t.cur <;> rfl
  rw [hr] at this
  rw [this]
  simp

theorem grown_big {s0 s : Arena} (h : Grown s0 s) : ∀ {live}, Inv s0 live → Big s0 → Big s := by
  induction h with
  | start s => intro live _ hb; exact hb
  | alloc size alignment mem hg _ ih =>
    intro live hi hb
    obtain ⟨⟨l, hl⟩, _⟩ := Grown.inv hg hi
    exact (ih hi hb).alloc hl size alignment mem
  | ensure size mem hg _ ih =>
    intro live hi hb
    obtain ⟨⟨l, hl⟩, _⟩ := Grown.inv hg hi
    exact (ih hi hb).ensure hl size mem
  | restore hg hroom hg' ih1 ih2 =>
    intro live hi hb
    obtain ⟨⟨l, hl⟩, _⟩ := Grown.inv hg hi
    obtain ⟨⟨m, hm⟩, he⟩ := Grown.inv hg' hl
    exact (ih2 hl (ih1 hi hb)).restore hl hm he hroom

theorem reach_big {s : Arena} {live : List (Nat × Nat)} (h : Reach s live) : Big s := by
  induction h with
  | init zero blockSize blockAlignment mem hz hz' h1 h2 hm =>
    have hi := Reach.inv (Reach.init zero blockSize blockAlignment mem hz hz' h1 h2 hm)
    refine ⟨hi.minShift, ?_⟩
    cases mem with
    | none => simp [chain, Arena.init]
    | some q => simp [chain, Arena.init, Arena.assign]
  | alloc size alignment mem hr _ ih => exact ih.alloc (Reach.inv hr) size alignment mem
  | ensure size mem hr _ ih => exact ih.ensure (Reach.inv hr) size mem
  | restore hr hroom hg ih =>
    obtain ⟨⟨m, hm⟩, he⟩ := Grown.inv hg (Reach.inv hr)
    exact (grown_big hg (Reach.inv hr) ih).restore (Reach.inv hr) hm he hroom
  | clear _ ih => exact ih.clear
  | reset _ ih => exact ih.reset

/-- After `ensure` succeeds, as much memory remains as was asked for, if that is at most 1900 bytes (for more see
`C61_ensure_counterexample`): what is allocated next, without an alignment, needs no other block. -/
theorem C61_ensure_partial {s : Arena} {live : List (Nat × Nat)} (h : Reach s live) {size : Nat} {mem : Option Nat}
    (hc : Call s 0 1 mem) (hs : size ≤ 1900) (ht : (ensure s size mem).2 = true) :
    size ≤ remaining (ensure s size mem).1 := by
  by_cases hd : size ≤ remaining s
  · rw [ensure_room hd]; exact hd
  rw [ensure_slow hd] at ht ⊢
  simp only at ht ⊢
  have hi := Reach.inv h
  have hb := reach_big h
  have hA := align_cases hi.shift
  have grown : (grow s 0 1 mem).2.isSome = true → size ≤ remaining (grow s 0 1 mem).1 := by
    intro hg
    cases hr : request s 0 1 with
    | none => simp [Arena.grow, hr] at hg
    | some n =>
      cases mem with
      | none => simp [Arena.grow, hr] at hg
      | some a =>
        have hn := request_big hb.1 hr
        obtain ⟨f1, f2, _⟩ := hc.2.2.2 a n rfl hr
        have hda := alignUp_data hA f1
        have hge := (alignUp_block (p := a + 24) hA).1
        have he : remaining (grow s 0 1 (some a)).1 = diff (a + 24 + (n - 24)) (alignUp (a + 24) s.align + 0) := by
          simp only [Arena.grow, hr, remaining, need_eq hc.1 hA]
        rw [he, diff_eq (by rcases hA with h' | h' | h' <;> rw [h'] at hda <;> rw [h'] <;> omega) (by omega)]
        rcases hA with h' | h' | h' <;> rw [h'] at hda <;> rw [h'] <;> omega
  cases hn : s.nexts with
  | nil => rw [slow_nil hn] at ht ⊢; exact grown ht
  | cons b rest =>
    obtain ⟨g1, g2, g3, g4⟩ := hi.good b (mem_owned.2 (Or.inr (Or.inr (by simp [hn]))))
    have hbig : 1992 ≤ b.size := by
      refine hb.2 b ?_
      have hcur := hi.cur
      unfold chain
      cases hcc : s.cur with
      | none => rw [hcc] at hcur; rw [hcur.2.1] at hn; cases hn
      | some c =>
        rw [hn]
        cases s.prevs.reverse with
        | nil => simp
        | cons y ys => simp
    have hda := alignUp_data hA g1
    rw [slow_fits hn (need_eq hc.1 hA) g3 g4 (Nat.zero_le _)]
    have he : remaining { s with prevs := s.cur.toList ++ s.prevs, cur := some b, nexts := rest,
                                 ptr := alignUp (b.addr + 24) s.align + 0, stop := b.addr + 24 + b.size } =
        diff (b.addr + 24 + b.size) (alignUp (b.addr + 24) s.align + 0) := by simp only [remaining]
    simp only
    rw [he, diff_eq (by omega) (by omega)]
    rcases hA with h' | h' | h' <;> rw [h'] at hda <;> rw [h'] <;> omega

/-- Restoring a state keeps all blocks and continues exactly where the state was saved, whatever was allocated since; that
everything allocated before stays apart from what is allocated after is `C61_apart_partial`, as `Reach` contains
`restore`.  The state must have been saved when the current block wasn't full: see `C61_restore_counterexample`. -/
theorem C61_restore_partial {s t : Arena} {live : List (Nat × Nat)} (h : Reach s live) (hroom : s.ptr < s.stop)
    (hg : Grown s t) :
    (restore t s.ptr).ptr = s.ptr ∧ (restore t s.ptr).stop = s.stop ∧ (restore t s.ptr).cur = s.cur ∧
      owned (restore t s.ptr) ~ owned t := by
  have hi := Reach.inv h
  obtain ⟨⟨m, hm⟩, he⟩ := Grown.inv hg hi
  have hp := owned_restore hi hm he hroom
  obtain ⟨c, l, h1, h2, h3⟩ := restore_eq hi hm he hroom
  refine ⟨?_, ?_, ?_, hp.symm⟩
  · rw [h3]
  · rw [h3]
  · rw [h3, h1]

end Blend2D.Arena
