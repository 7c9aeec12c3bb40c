import Verif.Arena.Spec
import Mathlib.Data.List.Pairwise
import Mathlib.Tactic.IntervalCases
import Mathlib.Tactic.NormNum
/-! The invariant of the arena. -/
namespace Blend2D.Arena
open Spec

/-- A block whose end is aligned and which has room for the alignment of its begin. -/
def Good (A : Nat) (b : Block) : Prop :=
  b.addr % 16 = 0 ∧ (b.addr + 24 + b.size) % 16 = 0 ∧ alignUp (b.addr + 24) A ≤ b.addr + 24 + b.size ∧
    b.addr + 24 + b.size + 128 ≤ 2 ^ 64

/-- Blocks have nothing in common. -/
def Sep (x y : Block) : Prop := Apart x.addr (24 + x.size) y.addr (24 + y.size)

theorem Sep.symm {x y : Block} (h : Sep x y) : Sep y x := by
  unfold Sep Apart at *; omega

structure Inv (s : Arena) (live : List (Nat × Nat)) : Prop where
  shift : s.alignShift = 4 ∨ s.alignShift = 5 ∨ s.alignShift = 6
  minShift : 11 ≤ s.minShift
  zero : s.zero % 64 = 0 ∧ s.zero + 128 ≤ 2 ^ 64
  good : ∀ b ∈ owned s, Good s.align b
  sep : (owned s).Pairwise Sep
  cur : match s.cur with
    | none => s.prevs = [] ∧ s.nexts = [] ∧ s.ptr = s.zero ∧ s.stop = s.zero
    | some b => b.addr + 24 ≤ s.ptr ∧ s.ptr ≤ s.stop ∧ s.stop = b.addr + 24 + b.size
  live : ∀ r ∈ live, 0 < r.2 → (∃ b ∈ s.prevs, b.addr + 24 ≤ r.1 ∧ r.1 + r.2 ≤ b.addr + 24 + b.size) ∨
    ∃ b, s.cur = some b ∧ b.addr + 24 ≤ r.1 ∧ r.1 + r.2 ≤ s.ptr

theorem align_cases {s : Arena} (h : s.alignShift = 4 ∨ s.alignShift = 5 ∨ s.alignShift = 6) :
    s.align = 16 ∨ s.align = 32 ∨ s.align = 64 := by
  unfold Arena.align; rcases h with h | h | h <;> rw [h] <;> simp

theorem alignUp_ge {p a : Nat} (ha : Alignment a) : p ≤ alignUp p a ∧ alignUp p a % a = 0 := by
  unfold alignUp
  rcases ha with rfl | rfl | rfl | rfl | rfl <;> refine ⟨by omega, by omega⟩

theorem alignUp_block {p A : Nat} (hA : A = 16 ∨ A = 32 ∨ A = 64) : p ≤ alignUp p A ∧ alignUp p A % A = 0 := by
  unfold alignUp
  rcases hA with rfl | rfl | rfl <;> refine ⟨by omega, by omega⟩

theorem alignUp_le {p a e : Nat} (ha : Alignment a) (he : e % 16 = 0) (h : p ≤ e) : alignUp p a ≤ e := by
  unfold alignUp
  rcases ha with rfl | rfl | rfl | rfl | rfl <;> omega

theorem alignUp_data {a A : Nat} (hA : A = 16 ∨ A = 32 ∨ A = 64) (ha : a % 16 = 0) : alignUp (a + 24) A ≤ a + 24 + (A - 8) := by
  unfold alignUp
  rcases hA with rfl | rfl | rfl <;> omega

theorem mod_of_block {p a A : Nat} (ha : Alignment a) (hA : A = 16 ∨ A = 32 ∨ A = 64) (h : p % A = 0) : p % a = 0 := by
  rcases ha with rfl | rfl | rfl | rfl | rfl <;> rcases hA with rfl | rfl | rfl <;> omega

theorem need_eq {s : Arena} {a : Nat} (ha : Alignment a) (hA : s.align = 16 ∨ s.align = 32 ∨ s.align = 64) :
    s.need a = s.align := by
  unfold Arena.need
  rcases ha with rfl | rfl | rfl | rfl | rfl <;> rcases hA with h | h | h <;> rw [h] <;> rfl

theorem diff_eq {e p : Nat} (h : p ≤ e) (he : e < 2 ^ 64) : diff e p = e - p := by
  unfold diff; omega

theorem default_ge {k : Nat} (h : 11 ≤ k) : 2048 ≤ 2 ^ min k 25 ∧ 2 ^ min k 25 ≤ 33554432 ∧ 2 ^ min k 25 % 16 = 0 := by
  have h1 : 11 ≤ min k 25 := by omega
  have h2 : min k 25 ≤ 25 := by omega
  generalize min k 25 = m at h1 h2
  interval_cases m <;> norm_num

/-- The block that is requested has room for the allocation, and its end is aligned. -/
theorem request_spec {s : Arena} {size a n : Nat} (hs : 11 ≤ s.minShift) (hA : s.align = 16 ∨ s.align = 32 ∨ s.align = 64)
    (ha : Alignment a) (hz : size ≤ 1900 ∨ size % 16 = 0) (h : request s size a = some n) :
    24 + (s.align - 8) + size ≤ n ∧ (n % 16 = 0) := by
  unfold request at h
  rw [need_eq ha hA] at h
  obtain ⟨d1, d2, d3⟩ := default_ge (show 11 ≤ s.count + s.minShift by omega)
  generalize 2 ^ min (s.count + s.minShift) 25 = D at *
  simp only at h
  split at h
  · split at h
    · cases h
    · simp only [Option.some.injEq] at h
      rcases hA with h' | h' | h' <;> simp only [h'] at * <;> omega
  · simp only [Option.some.injEq] at h
    rcases hA with h' | h' | h' <;> simp only [h'] at * <;> omega

theorem mem_owned {s : Arena} {b : Block} : b ∈ owned s ↔ b ∈ s.prevs ∨ s.cur = some b ∨ b ∈ s.nexts := by
  unfold owned; simp [or_assoc]

/-- The blocks don't depend on their order. -/
theorem sep_perm {l m : List Block} (h : l.Perm m) (hl : l.Pairwise Sep) : m.Pairwise Sep :=
  h.pairwise hl (fun h => Sep.symm h)

/-- What a successful allocation promises. -/
def Result (s' : Arena) (live : List (Nat × Nat)) (size alignment p : Nat) : Prop :=
  p % alignment = 0 ∧ (0 < size → (∃ b ∈ owned s', b.data ≤ p ∧ p + size ≤ b.stop) ∧
    ∀ r ∈ live, 0 < r.2 → Apart p size r.1 r.2)

/-- Memory of a block that isn't one of the blocks before is apart from everything that was allocated. -/
theorem apart_block {l : List Block} {b : Block} {r : Nat × Nat} (hb : ∀ x ∈ l, Sep x b) {p size : Nat}
    (h1 : b.addr + 24 ≤ p) (h2 : p + size ≤ b.addr + 24 + b.size)
    (hr : ∃ x ∈ l, x.addr + 24 ≤ r.1 ∧ r.1 + r.2 ≤ x.addr + 24 + x.size) : Apart p size r.1 r.2 := by
  obtain ⟨x, hx, h3, h4⟩ := hr
  have := hb x hx
  unfold Sep Apart at *
  omega

/-- Moving to another block, which is new or one of those behind the current one. -/
theorem Inv.move {s : Arena} {live : List (Nat × Nat)} (h : Inv s live) (b : Block) (rest : List Block) (c p size alignment : Nat)
    (ha : Alignment alignment)
    (hg : ∀ x ∈ b :: rest, Good s.align x) (hsep : (s.prevs ++ s.cur.toList ++ b :: rest).Pairwise Sep)
    (hp : p = alignUp (b.addr + 24) s.align) (hsz : p + size ≤ b.addr + 24 + b.size) :
    Inv { s with prevs := s.cur.toList ++ s.prevs, cur := some b, nexts := rest, ptr := p + size,
                 stop := b.addr + 24 + b.size, count := c } ((p, size) :: live) ∧
    Result { s with prevs := s.cur.toList ++ s.prevs, cur := some b, nexts := rest, ptr := p + size,
                    stop := b.addr + 24 + b.size, count := c } live size alignment p := by
  have hA := align_cases h.shift
  obtain ⟨hp1, hp2⟩ := alignUp_block (p := b.addr + 24) hA
  rw [← hp] at hp1 hp2
  have hlive : ∀ r ∈ live, 0 < r.2 → ∃ x ∈ s.cur.toList ++ s.prevs, x.addr + 24 ≤ r.1 ∧ r.1 + r.2 ≤ x.addr + 24 + x.size := by
    intro r hr h0
    rcases h.live r hr h0 with ⟨x, hx, h1⟩ | ⟨x, hx, h1, h2⟩
    · exact ⟨x, by simp [hx], h1⟩
    · have := h.cur
      rw [hx] at this
      exact ⟨x, by simp [hx], h1, by simp only at this; omega⟩
  have hperm : (s.prevs ++ s.cur.toList ++ b :: rest).Perm (s.cur.toList ++ s.prevs ++ [b] ++ rest) := by
    rw [List.append_assoc (s.cur.toList ++ s.prevs)]
    exact List.Perm.append_right _ List.perm_append_comm
  have hsep' := sep_perm hperm hsep
  have hbefore : ∀ x ∈ s.cur.toList ++ s.prevs, Sep x b := by
    intro x hx
    rw [List.append_assoc (s.cur.toList ++ s.prevs)] at hsep'
    exact (List.pairwise_append.1 hsep').2.2 x hx b (by simp)
  refine ⟨⟨h.shift, h.minShift, h.zero, ?_, hsep', ?_, ?_⟩, mod_of_block ha hA hp2, fun _ => ⟨⟨b, ?_, ?_, ?_⟩, ?_⟩⟩
  · intro x hx
    rw [mem_owned] at hx
    simp only [List.mem_append, Option.some.injEq] at hx
    rcases hx with (hx | hx) | hx | hx
    · exact h.good x (mem_owned.2 (Or.inr (Or.inl (by simpa using hx))))
    · exact h.good x (mem_owned.2 (Or.inl hx))
    · exact hg x (by simp [hx])
    · exact hg x (by simp [hx])
  · simp only; exact ⟨by omega, by omega, trivial⟩
  · intro r hr h0
    rcases List.mem_cons.1 hr with rfl | hr
    · exact Or.inr ⟨b, rfl, hp1, le_rfl⟩
    · exact Or.inl (hlive r hr h0)
  · simp [owned]
  · exact hp1
  · exact hsz
  · intro r hr h0
    exact apart_block hbefore hp1 hsz (hlive r hr h0)

theorem Inv.grow {s : Arena} {live : List (Nat × Nat)} (h : Inv s live) {size alignment : Nat} {mem : Option Nat}
    (hc : Call s size alignment mem) :
    match (grow s size alignment mem).2 with
    | some p => Inv (grow s size alignment mem).1 ((p, size) :: live) ∧ Result (grow s size alignment mem).1 live size alignment p
    | none => (grow s size alignment mem).1 = s ∧ (mem = none ∨ request s size alignment = none) := by
  obtain ⟨ha, h64, hz, hf⟩ := hc
  have hA := align_cases h.shift
  unfold Arena.grow
  cases hr : request s size alignment with
  | none => simp
  | some n =>
    cases hm : mem with
    | none => simp
    | some a =>
      obtain ⟨f1, f2, f3⟩ := hf a n hm hr
      obtain ⟨r1, r2⟩ := request_spec h.minShift hA ha hz hr
      have hd := alignUp_data hA f1
      simp only
      rw [need_eq ha hA]
      refine Inv.move h ⟨a, n - 24⟩ s.nexts (s.count + 1) _ size alignment ha ?_ ?_ rfl (by simp only; omega)
      · intro x hx
        rcases List.mem_cons.1 hx with rfl | hx
        · exact ⟨f1, by simp only; omega, by simp only; omega, by simp only; omega⟩
        · exact h.good x (mem_owned.2 (Or.inr (Or.inr hx)))
      · have hperm : ((⟨a, n - 24⟩ : Block) :: owned s).Perm (s.prevs ++ s.cur.toList ++ ⟨a, n - 24⟩ :: s.nexts) :=
          List.perm_middle.symm
        refine sep_perm hperm (List.pairwise_cons.2 ⟨?_, h.sep⟩)
        intro x hx
        have := f3 x hx
        unfold Sep Apart at *
        simp only; omega

theorem slow_nil {s : Arena} {size alignment : Nat} {mem : Option Nat} (hn : s.nexts = []) :
    slow s size alignment mem = Arena.grow s size alignment mem := by
  simp only [slow, hn]

theorem slow_fits {s : Arena} {size alignment : Nat} {mem : Option Nat} {b : Block} {rest : List Block}
    (hn : s.nexts = b :: rest) (ha : s.need alignment = s.align) (h1 : alignUp (b.addr + 24) s.align ≤ b.addr + 24 + b.size)
    (h2 : b.addr + 24 + b.size + 128 ≤ 2 ^ 64) (h : size ≤ b.addr + 24 + b.size - alignUp (b.addr + 24) s.align) :
    slow s size alignment mem =
      ({ s with prevs := s.cur.toList ++ s.prevs, cur := some b, nexts := rest,
                ptr := alignUp (b.addr + 24) s.align + size, stop := b.addr + 24 + b.size },
       some (alignUp (b.addr + 24) s.align)) := by
  have hd : diff (b.addr + 24 + b.size) (alignUp (b.addr + 24) s.align) =
      b.addr + 24 + b.size - alignUp (b.addr + 24) s.align := diff_eq h1 (by omega)
  simp only [slow, hn, ha, Block.data, Block.stop, hd, if_pos h]

theorem slow_full {s : Arena} {size alignment : Nat} {mem : Option Nat} {b : Block} {rest : List Block}
    (hn : s.nexts = b :: rest) (ha : s.need alignment = s.align) (h1 : alignUp (b.addr + 24) s.align ≤ b.addr + 24 + b.size)
    (h2 : b.addr + 24 + b.size + 128 ≤ 2 ^ 64) (h : ¬ size ≤ b.addr + 24 + b.size - alignUp (b.addr + 24) s.align) :
    slow s size alignment mem = Arena.grow s size alignment mem := by
  have hd : diff (b.addr + 24 + b.size) (alignUp (b.addr + 24) s.align) =
      b.addr + 24 + b.size - alignUp (b.addr + 24) s.align := diff_eq h1 (by omega)
  simp only [slow, hn, ha, Block.data, Block.stop, hd, if_neg h]

theorem alloc_fast {s : Arena} {size alignment : Nat} {mem : Option Nat} (h1 : alignUp s.ptr alignment ≤ s.stop)
    (h2 : s.stop < 2 ^ 64) (h : ¬ size > s.stop - alignUp s.ptr alignment) :
    alloc s size alignment mem = ({ s with ptr := alignUp s.ptr alignment + size }, some (alignUp s.ptr alignment)) := by
  simp only [alloc, diff_eq h1 h2, if_neg h]

theorem alloc_slow {s : Arena} {size alignment : Nat} {mem : Option Nat} (h1 : alignUp s.ptr alignment ≤ s.stop)
    (h2 : s.stop < 2 ^ 64) (h : size > s.stop - alignUp s.ptr alignment) :
    alloc s size alignment mem = slow s size alignment mem := by
  simp only [alloc, diff_eq h1 h2, if_pos h]

theorem Inv.slow {s : Arena} {live : List (Nat × Nat)} (h : Inv s live) {size alignment : Nat} {mem : Option Nat}
    (hc : Call s size alignment mem) :
    match (slow s size alignment mem).2 with
    | some p => Inv (slow s size alignment mem).1 ((p, size) :: live) ∧ Result (slow s size alignment mem).1 live size alignment p
    | none => (slow s size alignment mem).1 = s ∧ (mem = none ∨ request s size alignment = none) := by
  cases hn : s.nexts with
  | nil => rw [slow_nil hn]; exact h.grow hc
  | cons b rest =>
    have hA := align_cases h.shift
    obtain ⟨g1, g2, g3, g4⟩ := h.good b (mem_owned.2 (Or.inr (Or.inr (by simp [hn]))))
    by_cases hsz : size ≤ b.addr + 24 + b.size - alignUp (b.addr + 24) s.align
    · rw [slow_fits hn (need_eq hc.1 hA) g3 g4 hsz]
      refine Inv.move h b rest s.count _ size alignment hc.1 ?_ ?_ rfl (by omega)
      · intro x hx
        exact h.good x (mem_owned.2 (Or.inr (Or.inr (by rw [hn]; exact hx))))
      · have := h.sep
        unfold owned at this
        rwa [hn] at this
    · rw [slow_full hn (need_eq hc.1 hA) g3 g4 hsz]
      exact h.grow hc

theorem Inv.alloc {s : Arena} {live : List (Nat × Nat)} (h : Inv s live) {size alignment : Nat} {mem : Option Nat}
    (hc : Call s size alignment mem) :
    match (alloc s size alignment mem).2 with
    | some p => Inv (alloc s size alignment mem).1 ((p, size) :: live) ∧ Result (alloc s size alignment mem).1 live size alignment p
    | none => (alloc s size alignment mem).1 = s ∧ (mem = none ∨ request s size alignment = none) := by
  have hstop : s.ptr ≤ s.stop ∧ s.stop % 16 = 0 ∧ s.stop < 2 ^ 64 := by
    have := h.cur
    cases hb : s.cur with
    | none =>
      rw [hb] at this
      obtain ⟨_, _, e1, e2⟩ := this
      have := h.zero
      exact ⟨by omega, by omega, by omega⟩
    | some b =>
      rw [hb] at this
      obtain ⟨e1, e2, e3⟩ := this
      obtain ⟨_, g2, _, g4⟩ := h.good b (mem_owned.2 (Or.inr (Or.inl hb)))
      exact ⟨e2, by omega, by omega⟩
  obtain ⟨s1, s2, s3⟩ := hstop
  obtain ⟨p1, p2⟩ := alignUp_ge (p := s.ptr) hc.1
  have p3 := alignUp_le hc.1 s2 s1
  by_cases hsz : size > s.stop - alignUp s.ptr alignment
  · rw [alloc_slow p3 s3 hsz]; exact h.slow hc
  · rw [alloc_fast p3 s3 hsz]
    simp only
    generalize alignUp s.ptr alignment = p at *
    refine ⟨⟨h.shift, h.minShift, h.zero, h.good, h.sep, ?_, ?_⟩, p2, fun h0 => ?_⟩
    · have := h.cur
      simp only
      cases hb : s.cur with
      | none =>
        rw [hb] at this
        obtain ⟨e0, e0', e1, e2⟩ := this
        exact ⟨e0, e0', by omega, e2⟩
      | some b =>
        rw [hb] at this
        obtain ⟨e1, e2, e3⟩ := this
        exact ⟨by omega, by omega, e3⟩
    · intro r hr h0
      have hcur := h.cur
      rcases List.mem_cons.1 hr with rfl | hr
      · simp only at h0
        cases hb : s.cur with
        | none => rw [hb] at hcur; simp only at hcur; omega
        | some b => rw [hb] at hcur; simp only at hcur; exact Or.inr ⟨b, rfl, by simp only; omega, le_rfl⟩
      · rcases h.live r hr h0 with h1 | ⟨b, h1, h2, h3⟩
        · exact Or.inl h1
        · exact Or.inr ⟨b, h1, h2, by simp only; omega⟩
    · have hcur := h.cur
      cases hb : s.cur with
      | none => rw [hb] at hcur; simp only at hcur; omega
      | some b =>
        rw [hb] at hcur
        simp only at hcur
        refine ⟨⟨b, (by simp [owned]), by unfold Block.data; omega, by unfold Block.stop Block.data; omega⟩, ?_⟩
        intro r hr hr0
        rcases h.live r hr hr0 with h1 | ⟨x, h1, h2, h3⟩
        · refine apart_block (l := s.prevs) (b := b) ?_ (by omega) (by omega) h1
          intro x hx
          have hs := h.sep
          unfold owned at hs
          rw [List.append_assoc] at hs
          exact (List.pairwise_append.1 hs).2.2 x hx b (by simp [hb])
        · unfold Apart; rw [hb] at h1; simp only [Option.some.injEq] at h1; subst h1; right; omega

/-- Starting at the first block. -/
theorem Inv.assign {s : Arena} {live : List (Nat × Nat)} (h : Inv s live) (b : Block) (rest : List Block) (c : Nat)
    (hl : (b :: rest).Pairwise Sep) (hg : ∀ x ∈ b :: rest, Good s.align x) :
    Inv { s.assign b rest with count := c } [] := by
  have hA := align_cases h.shift
  obtain ⟨g1, g2, g3, g4⟩ := hg b (by simp)
  obtain ⟨p1, _⟩ := alignUp_block (p := b.addr + 24) hA
  refine ⟨h.shift, h.minShift, h.zero, ?_, ?_, ?_, by simp⟩
  · intro x hx
    exact hg x (by simpa [owned, Arena.assign] using hx)
  · simpa [owned, Arena.assign] using hl
  · simp only [Arena.assign, Block.data, Block.stop]
    exact ⟨p1, g3, trivial⟩

theorem Inv.clear {s : Arena} {live : List (Nat × Nat)} (h : Inv s live) : Inv (clear s) [] := by
  have hA := align_cases h.shift
  have hperm : (owned s).Perm (s.prevs.reverse ++ s.cur.toList ++ s.nexts) := by
    unfold owned
    exact List.Perm.append_right _ (List.Perm.append_right _ (List.reverse_perm _).symm)
  unfold Arena.clear
  cases hl : s.prevs.reverse ++ s.cur.toList ++ s.nexts with
  | nil =>
    simp only
    have hz := h.zero
    have hzz : alignUp s.zero s.align = s.zero := by
      unfold alignUp; rcases hA with h' | h' | h' <;> rw [h'] <;> omega
    simp only [List.append_eq_nil_iff, List.reverse_eq_nil_iff, Option.toList_eq_nil_iff] at hl
    obtain ⟨⟨l1, l2⟩, l3⟩ := hl
    refine ⟨h.shift, h.minShift, h.zero, h.good, h.sep, ?_, by simp⟩
    simp only [l2, hzz]
    exact ⟨l1, l3, trivial, trivial⟩
  | cons b rest =>
    rw [hl] at hperm
    exact h.assign b rest s.count (sep_perm hperm h.sep) (fun x hx => h.good x (hperm.symm.subset hx))

theorem Inv.reset {s : Arena} {live : List (Nat × Nat)} (h : Inv s live) : Inv (reset s).1 [] := by
  unfold Arena.reset
  have hz : Inv { s with prevs := [], cur := none, nexts := [], ptr := s.zero, stop := s.zero, count := 0 } [] :=
    ⟨h.shift, h.minShift, h.zero, by simp [owned], by simp [owned], ⟨rfl, rfl, rfl, rfl⟩, by simp⟩
  cases hb : s.cur with
  | none =>
    refine ⟨h.shift, h.minShift, h.zero, h.good, h.sep, h.cur, by simp⟩
  | some b =>
    simp only
    split
    · simp only
      cases hl : (b :: s.prevs).getLast? with
      | none => exact hz
      | some f =>
        have hf : f ∈ b :: s.prevs := List.mem_of_getLast? hl
        have hf' : f ∈ owned s := by
          rcases List.mem_cons.1 hf with rfl | hf
          · exact mem_owned.2 (Or.inr (Or.inl hb))
          · exact mem_owned.2 (Or.inl hf)
        exact hz.assign f [] 0 (by simp) (fun x hx => by
          simp only [List.mem_singleton] at hx
          subst hx; exact h.good _ hf')
    · exact hz

theorem log2_align {n : Nat} (h : n < 64) : Nat.log2 (n ||| 8) = 3 ∨ Nat.log2 (n ||| 8) = 4 ∨ Nat.log2 (n ||| 8) = 5 := by
  interval_cases n <;> decide

/-- Every history keeps the invariant. -/
theorem ensure_room {s : Arena} {size : Nat} {mem : Option Nat} (h : size ≤ remaining s) : ensure s size mem = (s, true) := by
  simp only [ensure, if_pos h]

theorem ensure_slow {s : Arena} {size : Nat} {mem : Option Nat} (h : ¬ size ≤ remaining s) :
    ensure s size mem = ((slow s 0 1 mem).1, (slow s 0 1 mem).2.isSome) := by
  simp only [ensure, if_neg h]

theorem Inv.tail {s : Arena} {r : Nat × Nat} {live : List (Nat × Nat)} (h : Inv s (r :: live)) : Inv s live :=
  ⟨h.shift, h.minShift, h.zero, h.good, h.sep, h.cur, fun x hx => h.live x (List.mem_cons_of_mem _ hx)⟩

theorem Inv.ensure {s : Arena} {live : List (Nat × Nat)} (h : Inv s live) {size : Nat} {mem : Option Nat}
    (hc : Call s 0 1 mem) : Inv (ensure s size mem).1 live := by
  by_cases hr : size ≤ remaining s
  · rw [ensure_room hr]; exact h
  · rw [ensure_slow hr]
    have := h.slow hc
    simp only
    cases hp : (Arena.slow s 0 1 mem).2 with
    | none => rw [hp] at this; simp only at this; rw [this.1]; exact h
    | some p => rw [hp] at this; exact this.1.tail

/-- What `restore_state` finds: the block the state was saved in. -/
theorem walk_found {p a : Nat} {c : Block} {r : List Block} (h1 : c.data ≤ p) (h2 : p < c.stop) (l : List Block) :
    ∀ (b : Block) (nexts : List Block), (∀ x ∈ b :: l, ¬ (x.data ≤ p ∧ p < x.stop)) →
      walk p a b (l ++ c :: r) nexts = (c, r, (b :: l).reverse ++ nexts, p) := by
  induction l with
  | nil =>
    intro b nexts hb
    have := hb b (by simp)
    rw [List.nil_append, walk, if_neg this]
    cases r with
    | nil => rw [walk, if_pos ⟨h1, h2⟩]; rfl
    | cons x xs => rw [walk, if_pos ⟨h1, h2⟩]; rfl
  | cons y ys ih =>
    intro b nexts hb
    have := hb b (by simp)
    rw [List.cons_append, walk, if_neg this, ih y (b :: nexts) (fun x hx => hb x (List.mem_cons_of_mem _ hx))]
    simp

theorem walk_here {p a : Nat} {c : Block} {r : List Block} (h1 : c.data ≤ p) (h2 : p < c.stop) (nexts : List Block) :
    walk p a c r nexts = (c, r, nexts, p) := by
  cases r with
  | nil => rw [walk, if_pos ⟨h1, h2⟩]
  | cons x xs => rw [walk, if_pos ⟨h1, h2⟩]

/-- The arena has grown from another one: its blocks up to the current one begin with those of the other. -/
def Ext (s0 s : Arena) : Prop :=
  (∃ l, s.cur.toList ++ s.prevs = l ++ (s0.cur.toList ++ s0.prevs)) ∧ s.alignShift = s0.alignShift ∧
    s.minShift = s0.minShift ∧ s.zero = s0.zero ∧ s.static = s0.static

theorem Ext.refl (s : Arena) : Ext s s := ⟨⟨[], rfl⟩, rfl, rfl, rfl, rfl⟩

theorem Ext.trans {s0 s t : Arena} (h : Ext s0 s) (g : Ext s t) : Ext s0 t := by
  obtain ⟨⟨l, h1⟩, h2, h3, h4, h5⟩ := h
  obtain ⟨⟨m, g1⟩, g2, g3, g4, g5⟩ := g
  exact ⟨⟨m ++ l, by rw [g1, h1, List.append_assoc]⟩, g2.trans h2, g3.trans h3, g4.trans h4, g5.trans h5⟩

theorem Ext.grow (s : Arena) (size alignment : Nat) (mem : Option Nat) : Ext s (grow s size alignment mem).1 := by
  cases hr : request s size alignment with
  | none => simp only [Arena.grow, hr]; exact Ext.refl s
  | some n =>
    cases mem with
    | none => simp only [Arena.grow, hr]; exact Ext.refl s
    | some a =>
      simp only [Arena.grow, hr]
      exact ⟨⟨[⟨a, n - 24⟩], rfl⟩, rfl, rfl, rfl, rfl⟩

theorem slow_next {s : Arena} {size alignment : Nat} {mem : Option Nat} {b : Block} {rest : List Block}
    (hn : s.nexts = b :: rest) (hd : size ≤ diff b.stop (alignUp b.data (s.need alignment))) :
    (slow s size alignment mem).1 =
      { s with prevs := s.cur.toList ++ s.prevs, cur := some b, nexts := rest,
               ptr := alignUp b.data (s.need alignment) + size, stop := b.stop } := by
  simp only [slow, hn, if_pos hd]

theorem Ext.slow (s : Arena) (size alignment : Nat) (mem : Option Nat) : Ext s (slow s size alignment mem).1 := by
  cases hn : s.nexts with
  | nil => rw [slow_nil hn]; exact Ext.grow s size alignment mem
  | cons b rest =>
    by_cases hd : size ≤ diff b.stop (alignUp b.data (s.need alignment))
    · rw [slow_next hn hd]
      exact ⟨⟨[b], rfl⟩, rfl, rfl, rfl, rfl⟩
    · have : Arena.slow s size alignment mem = Arena.grow s size alignment mem := by
        simp only [Arena.slow, hn, if_neg hd]
      rw [this]
      exact Ext.grow s size alignment mem

theorem Ext.alloc (s : Arena) (size alignment : Nat) (mem : Option Nat) : Ext s (alloc s size alignment mem).1 := by
  by_cases hd : size > diff s.stop (alignUp s.ptr alignment)
  · have : Arena.alloc s size alignment mem = Arena.slow s size alignment mem := by
      simp only [Arena.alloc, if_pos hd]
    rw [this]
    exact Ext.slow s size alignment mem
  · have : (Arena.alloc s size alignment mem).1 = { s with ptr := alignUp s.ptr alignment + size } := by
      simp only [Arena.alloc, if_neg hd]
    rw [this]
    exact ⟨⟨[], rfl⟩, rfl, rfl, rfl, rfl⟩

theorem Ext.ensure (s : Arena) (size : Nat) (mem : Option Nat) : Ext s (ensure s size mem).1 := by
  by_cases hr : size ≤ remaining s
  · rw [ensure_room hr]; exact Ext.refl s
  · rw [ensure_slow hr]; exact Ext.slow s 0 1 mem

/-- Restoring a state that was saved in a block with room. -/
theorem restore_eq {s t : Arena} {live lt : List (Nat × Nat)} (hs : Inv s live) (ht : Inv t lt) (he : Ext s t)
    (hroom : s.ptr < s.stop) :
    ∃ c l, s.cur = some c ∧ t.cur.toList ++ t.prevs = l ++ c :: s.prevs ∧ restore t s.ptr =
      { t with prevs := s.prevs, cur := some c, nexts := l.reverse ++ t.nexts, ptr := s.ptr, stop := s.stop } := by
  have hcur := hs.cur
  cases hc : s.cur with
  | none => rw [hc] at hcur; simp only at hcur; omega
  | some c =>
    rw [hc] at hcur
    obtain ⟨e1, e2, e3⟩ := hcur
    obtain ⟨⟨l, hl⟩, _⟩ := he
    rw [hc] at hl
    simp only [Option.toList_some, List.cons_append, List.nil_append] at hl
    have h1 : c.data ≤ s.ptr := e1
    have hstop : c.stop = s.stop := by rw [e3]; rfl
    have h2 : s.ptr < c.stop := by rw [hstop]; exact hroom
    refine ⟨c, l, rfl, hl, ?_⟩
    cases hb : t.cur with
    | none =>
      have := ht.cur
      rw [hb] at this
      rw [hb, this.1] at hl
      simp at hl
    | some b =>
      rw [hb] at hl
      simp only [Option.toList_some, List.cons_append, List.nil_append] at hl
      have hne : ∀ x ∈ l, ¬ (x.data ≤ s.ptr ∧ s.ptr < x.stop) := by
        intro x hx hcon
        have hp : (t.cur.toList ++ t.prevs).Pairwise Sep := by
          have := ht.sep
          unfold owned at this
          exact sep_perm List.perm_append_comm (List.pairwise_append.1 this).1
        rw [hb] at hp
        simp only [Option.toList_some, List.cons_append, List.nil_append] at hp
        rw [hl] at hp
        have := (List.pairwise_append.1 hp).2.2 x hx c (by simp)
        unfold Sep Apart at this
        unfold Block.data Block.stop Block.data at hcon
        unfold Block.data at h1
        unfold Block.stop Block.data at h2
        omega
      cases l with
      | nil =>
        simp only [List.nil_append, List.cons.injEq] at hl
        obtain ⟨rfl, hpv⟩ := hl
        simp only [restore, hb, hpv, walk_here h1 h2, List.reverse_nil, List.nil_append, hstop]
      | cons x xs =>
        simp only [List.cons_append, List.cons.injEq] at hl
        obtain ⟨rfl, hpv⟩ := hl
        simp only [restore, hb, hpv, walk_found h1 h2 xs b t.nexts hne, hstop]

theorem Ext.restore {s t : Arena} {live lt : List (Nat × Nat)} (hs : Inv s live) (ht : Inv t lt) (he : Ext s t)
    (hroom : s.ptr < s.stop) : Ext s (restore t s.ptr) := by
  obtain ⟨c, l, h1, h2, h3⟩ := restore_eq hs ht he hroom
  rw [h3]
  exact ⟨⟨[], by rw [h1]; rfl⟩, he.2⟩

theorem owned_restore {s t : Arena} {live lt : List (Nat × Nat)} (hs : Inv s live) (ht : Inv t lt) (he : Ext s t)
    (hroom : s.ptr < s.stop) : (owned t).Perm (owned (restore t s.ptr)) := by
  obtain ⟨c, l, h1, h2, h3⟩ := restore_eq hs ht he hroom
  rw [h3]
  unfold owned
  simp only [Option.toList_some]
  have e1 : (t.prevs ++ t.cur.toList).Perm (l ++ c :: s.prevs) := by
    rw [← h2]; exact List.perm_append_comm
  refine (e1.append_right t.nexts).trans ?_
  rw [← List.append_assoc]
  refine List.Perm.append_right _ ?_
  refine List.perm_append_comm.trans ?_
  refine List.Perm.append ?_ (List.reverse_perm l).symm
  exact (List.perm_append_comm (l₁ := [c]) (l₂ := s.prevs))

theorem Inv.restore {s t : Arena} {live lt : List (Nat × Nat)} (hs : Inv s live) (ht : Inv t lt) (he : Ext s t)
    (hroom : s.ptr < s.stop) : Inv (restore t s.ptr) live := by
  have hperm := owned_restore hs ht he hroom
  obtain ⟨c, l, h1, h2, h3⟩ := restore_eq hs ht he hroom
  have hcur := hs.cur
  rw [h1] at hcur
  have hal : (Arena.restore t s.ptr).align = t.align := by rw [h3]; rfl
  refine ⟨?_, ?_, ?_, ?_, sep_perm hperm ht.sep, ?_, ?_⟩
  · rw [h3]; exact ht.shift
  · rw [h3]; exact ht.minShift
  · rw [h3]; exact ht.zero
  · intro b hb
    rw [hal]
    exact ht.good b (hperm.mem_iff.2 hb)
  · rw [h3]; exact hcur
  · rw [h3]
    intro r hr h0
    rcases hs.live r hr h0 with h | ⟨b, hb, h⟩
    · exact Or.inl h
    · rw [h1] at hb; exact Or.inr ⟨b, hb, h⟩

/-- Calls after a state is saved keep the invariant and extend the list of blocks. -/
theorem Grown.inv {s0 s : Arena} (h : Grown s0 s) : ∀ {live}, Inv s0 live → (∃ l, Inv s l) ∧ Ext s0 s := by
  induction h with
  | start s => intro live hi; exact ⟨⟨live, hi⟩, Ext.refl s⟩
  | @alloc s0 s size alignment mem _ hc ih =>
    intro live hi
    obtain ⟨⟨l, hl⟩, he⟩ := ih hi
    refine ⟨?_, he.trans (Ext.alloc s size alignment mem)⟩
    have := hl.alloc hc
    cases hr : (Arena.alloc s size alignment mem).2 with
    | none => rw [hr] at this; simp only at this; rw [this.1]; exact ⟨l, hl⟩
    | some p => rw [hr] at this; exact ⟨_, this.1⟩
  | @ensure s0 s size mem _ hc ih =>
    intro live hi
    obtain ⟨⟨l, hl⟩, he⟩ := ih hi
    exact ⟨⟨l, hl.ensure hc⟩, he.trans (Ext.ensure s size mem)⟩
  | @restore s0 s t _ hroom _ ih1 ih2 =>
    intro live hi
    obtain ⟨⟨l, hl⟩, he⟩ := ih1 hi
    obtain ⟨⟨m, hm⟩, hg⟩ := ih2 hl
    exact ⟨⟨l, hl.restore hm hg hroom⟩, he.trans (Ext.restore hl hm hg hroom)⟩

theorem Reach.inv {s : Arena} {live : List (Nat × Nat)} (h : Reach s live) : Inv s live := by
  induction h with
  | init zero blockSize blockAlignment mem hz hz' h1 h2 hm =>
    have hs : 10 ≤ Nat.log2 blockSize := (Nat.le_log2 (by omega)).2 (by omega)
    have ha := log2_align h2
    have h0 : Inv (⟨zero, [], none, [], zero, zero, Nat.log2 (blockAlignment ||| 8) + 1, Nat.log2 blockSize + 1,
        mem.isSome, 0⟩ : Arena) [] :=
      ⟨by simp only; omega, by simp only; omega, ⟨hz, hz'⟩, by simp [owned], by simp [owned], ⟨rfl, rfl, rfl, rfl⟩, by simp⟩
    unfold Arena.init
    simp only
    cases mem with
    | none => exact h0
    | some q =>
      obtain ⟨a, n⟩ := q
      obtain ⟨m1, m2, m3, m4⟩ := hm a n rfl
      have hA := align_cases h0.shift
      refine h0.assign ⟨a, n - 24⟩ [] 1 (by simp) ?_
      intro x hx
      simp only [List.mem_singleton] at hx
      subst hx
      have hd := alignUp_data hA m1
      refine ⟨m1, by simp only; omega, ?_, by simp only; omega⟩
      simp only
      generalize Arena.align _ = A at *
      rcases hA with rfl | rfl | rfl <;> omega
  | @alloc s live size alignment mem _ hc ih =>
    have := ih.alloc hc
    cases hr : (Arena.alloc s size alignment mem).2 with
    | none => rw [hr] at this; simp only at this ⊢; rw [this.1]; exact ih
    | some p => rw [hr] at this; exact this.1
  | ensure size mem _ hc ih => exact ih.ensure hc
  | restore _ hroom hg ih =>
    obtain ⟨⟨m, hm⟩, he⟩ := Grown.inv hg ih
    exact ih.restore hm he hroom
  | clear _ ih => exact ih.clear
  | reset _ ih => exact ih.reset

end Blend2D.Arena
