import Verif.ZeroAlloc.Block
import Mathlib.Data.List.Forall2
import Mathlib.Algebra.BigOperators.Group.List.Basic

/-!
# The allocator of zeroed memory hands out disjoint, zeroed memory (C26)
-/

namespace Blend2D.ZeroAlloc

open BitOps

/-! ## Specification -/

/-- Two memory regions (address, size) do not overlap. -/
def Apart (p q : Nat × Nat) : Prop := p.1 + p.2 ≤ q.1 ∨ q.1 + q.2 ≤ p.1

/-- `x` is an address within the region. -/
def Within (x : Nat) (p : Nat × Nat) : Prop := p.1 ≤ x ∧ x < p.1 + p.2

variable {N : Nat}

/-- The memory managed by a block. -/
def Block.region (b : Block N) : Nat × Nat := (b.base, b.areaSize * granularity)

/-- What the C library guarantees when it returns memory for a new block: the memory does not
overlap memory that is still allocated. -/
def FreshBase (w : World N) (size : Nat) (newBase : Option Nat) : Prop :=
  ∀ base area, newBase = some base → allocUnits size = some area → ∀ b ∈ w.heap.blocks,
    Apart b.region (base, numGranularized (idealBlockSize w.heap.blocks.length (area * granularity)) granularity
      * granularity)

/-- What the owner of an allocation has to guarantee when it is released: it is a live allocation,
released with the size that was returned, and its content is zero again. -/
def CleanRelease (w : World N) (addr size : Nat) : Prop :=
  (addr, size) ∈ w.live ∧ ∀ x, Within x (addr, size) → w.mem x = 0

/-- What callers may do. -/
def Legal (o : Order) (w : World N) : Op → Prop
  | .alloc size newBase => FreshBase w size newBase
  | .release addr size => CleanRelease w addr size
  | .resize addr size newSize newBase =>
    CleanRelease w addr size ∧ ∀ w', w.release o addr size = some w' → FreshBase w' newSize newBase
  | .write addr _ => ∃ p ∈ w.live, Within addr p
  | .cleanup => True

/-- The state after startup: the static block at `base`, zeroed. -/
def World.init (N base : Nat) (mem : Nat → UInt8) : World N :=
  { heap := Heap.init N base, mem := zeroed mem base (1024 * granularity), live := [] }

/-- Sizes are values of `size_t`. -/
def Op.SizeOk : Op → Prop
  | .alloc size _ => size < 2 ^ 64
  | .resize _ _ newSize _ => newSize < 2 ^ 64
  | _ => True

/-- All states reachable by legal operations. -/
inductive Reach (N : Nat) (o : Order) : World N → Prop
  | init (base : Nat) (mem : Nat → UInt8) : Reach N o (World.init N base mem)
  | step {w w' : World N} (op : Op) : Reach N o w → Legal o w op ∧ op.SizeOk → step o w op = some w' → Reach N o w'

/-! ## Invariant -/

structure Inv (o : Order) (w : World N) : Prop where
  wf : ∀ b ∈ w.heap.blocks, Wf o b 0 0
  small : ∀ b ∈ w.heap.blocks, b.areaSize < 2 ^ 22
  disj : w.heap.blocks.Pairwise fun a b => Apart a.region b.region
  live : ∀ p ∈ w.live, ∃ b ∈ w.heap.blocks, ∃ i n, 0 < n ∧ p = (b.base + i * granularity, n * granularity) ∧
    i + n ≤ b.areaSize ∧ ∀ k, i ≤ k → k < i + n → bitAt o b.bits k = true
  liveDisj : w.live.Pairwise Apart
  zero : ∀ b ∈ w.heap.blocks, ∀ i, i < b.areaSize → bitAt o b.bits i = false →
    ∀ x, Within x (b.base + i * granularity, granularity) → w.mem x = 0
  total : w.heap.totalUsed = (w.heap.blocks.map (·.areaUsed)).sum
  sum : w.heap.totalUsed * granularity = (w.live.map (·.2)).sum

theorem apart_symm {p q : Nat × Nat} (h : Apart p q) : Apart q p := by
  unfold Apart at *; omega

theorem forall2_refl (bs : List (Block N)) : List.Forall₂ SameArea bs bs := by
  induction bs with
  | nil => exact .nil
  | cons b bs ih => exact .cons ⟨rfl, rfl, rfl, rfl, rfl⟩ ih

theorem forall2_mem {bs bs' : List (Block N)} (h : List.Forall₂ SameArea bs bs') :
    (∀ b ∈ bs, ∃ b' ∈ bs', SameArea b b') ∧ (∀ b' ∈ bs', ∃ b ∈ bs, SameArea b b') := by
  induction h with
  | nil => exact ⟨by intro b hb; simp at hb, by intro b hb; simp at hb⟩
  | @cons b b' bs bs' h1 _ ih =>
    refine ⟨?_, ?_⟩
    · intro x hx
      rcases List.mem_cons.1 hx with rfl | hx
      · exact ⟨b', by simp, h1⟩
      · obtain ⟨y, hy, hs⟩ := ih.1 x hx
        exact ⟨y, by simp [hy], hs⟩
    · intro x hx
      rcases List.mem_cons.1 hx with rfl | hx
      · exact ⟨b, by simp, h1⟩
      · obtain ⟨y, hy, hs⟩ := ih.2 x hx
        exact ⟨y, by simp [hy], hs⟩

theorem SameArea.region_eq {b b' : Block N} (h : SameArea b b') : b'.region = b.region := by
  obtain ⟨h1, h2, _⟩ := h
  unfold Block.region; rw [h1, h2]

theorem forall2_pairwise {bs bs' : List (Block N)} (h : List.Forall₂ SameArea bs bs')
    (hp : bs.Pairwise fun a b => Apart a.region b.region) : bs'.Pairwise fun a b => Apart a.region b.region := by
  induction h with
  | nil => exact .nil
  | @cons b b' bs bs' h1 h2 ih =>
    rw [List.pairwise_cons] at hp ⊢
    refine ⟨?_, ih hp.2⟩
    intro x hx
    obtain ⟨y, hy, hs⟩ := (forall2_mem h2).2 x hx
    rw [h1.region_eq, hs.region_eq]
    exact hp.1 y hy

theorem forall2_sum {bs bs' : List (Block N)} (h : List.Forall₂ SameArea bs bs') :
    (bs'.map (·.areaUsed)).sum = (bs.map (·.areaUsed)).sum := by
  induction h with
  | nil => rfl
  | @cons b b' bs bs' h1 _ ih => simp only [List.map_cons, List.sum_cons, ih, h1.2.2.1]

/-- The invariant does not depend on the search ranges. -/
theorem Inv.same {o : Order} {h : Heap N} {mem : Nat → UInt8} {live : List (Nat × Nat)} {bs' : List (Block N)}
    (hi : Inv o ⟨h, mem, live⟩) (hs : List.Forall₂ SameArea h.blocks bs') (hw : ∀ b ∈ bs', Wf o b 0 0) :
    Inv o ⟨{ h with blocks := bs' }, mem, live⟩ := by
  obtain ⟨_, h2, h3, h4, h5, h6, h7, h8⟩ := hi
  refine ⟨hw, ?_, forall2_pairwise hs h3, ?_, h5, ?_, ?_, h8⟩
  · intro b hb
    obtain ⟨y, hy, hss⟩ := (forall2_mem hs).2 b hb
    rw [hss.2.1]; exact h2 y hy
  · intro p hp
    obtain ⟨b, hb, i, n, g1, g2, g3, g4⟩ := h4 p hp
    obtain ⟨y, hy, hss⟩ := (forall2_mem hs).1 b hb
    refine ⟨y, hy, i, n, g1, by rw [hss.1]; exact g2, by rw [hss.2.1]; exact g3, ?_⟩
    intro k k1 k2
    rw [hss.2.2.2.2]; exact g4 k k1 k2
  · intro b hb i hi1 hi2
    obtain ⟨y, hy, hss⟩ := (forall2_mem hs).2 b hb
    rw [hss.2.1] at hi1
    rw [hss.2.2.2.2] at hi2
    rw [hss.1]
    exact h6 y hy i hi1 hi2
  · show h.totalUsed = _
    rw [forall2_sum hs]; exact h7

theorem tryBlocks_spec (o : Order) (hN : 0 < N) {area : Nat} (ha : 0 < area) :
    ∀ (bs : List (Block N)), (∀ b ∈ bs, Wf o b 0 0) →
    ∃ bs' r, tryBlocks o area bs = some (bs', r) ∧
      (r = none → List.Forall₂ SameArea bs bs' ∧ ∀ b ∈ bs', Wf o b 0 0) ∧
      (∀ a, r = some a → ∃ l1 b b' l2 i, List.Forall₂ SameArea bs (l1 ++ b :: l2) ∧
        (∀ x ∈ l1 ++ b :: l2, Wf o x 0 0) ∧ bs' = l1 ++ b' :: l2 ∧ a = b.base + i * granularity ∧
        i + area ≤ b.areaSize ∧ (∀ k, i ≤ k → k < i + area → bitAt o b.bits k = false) ∧
        Wf o b' 0 0 ∧ b'.base = b.base ∧ b'.areaSize = b.areaSize ∧ b'.static = b.static ∧
        b'.areaUsed = b.areaUsed + area ∧
        ∀ k, bitAt o b'.bits k = if i ≤ k ∧ k < i + area then true else bitAt o b.bits k) := by
  intro bs
  induction bs with
  | nil =>
    intro _
    exact ⟨[], none, rfl, fun _ => ⟨.nil, by intro b hb; simp at hb⟩, by intro a h; simp at h⟩
  | cons b bs ih =>
    intro hw
    have hwb := hw b (by simp)
    have hwbs : ∀ x ∈ bs, Wf o x 0 0 := fun x hx => hw x (by simp [hx])
    obtain ⟨b1, r1, e1, hs, hn, hsome⟩ := tryBlock_spec o hN hwb ha
    cases r1 with
    | none =>
      obtain ⟨bs', r, e2, g1, g2⟩ := ih hwbs
      refine ⟨b1 :: bs', r, by rw [tryBlocks, e1]; simp only [e2], ?_, ?_⟩
      · intro hr
        obtain ⟨p1, p2⟩ := g1 hr
        refine ⟨.cons hs p1, ?_⟩
        intro x hx
        rcases List.mem_cons.1 hx with rfl | hx
        · exact hn rfl
        · exact p2 x hx
      · intro a hr
        obtain ⟨l1, c, c', l2, i, q1, q2, q3, q4⟩ := g2 a hr
        refine ⟨b1 :: l1, c, c', l2, i, .cons hs q1, ?_, by rw [q3]; rfl, q4⟩
        intro x hx
        rcases List.mem_cons.1 hx with rfl | hx
        · exact hn rfl
        · exact q2 x hx
    | some i =>
      obtain ⟨g1, g2, g3⟩ := hsome i rfl
      obtain ⟨hs1, hs2, hs3, hs4, hs5⟩ := hs
      obtain ⟨b', e2, p1, p2, p3, p4, p5, p6⟩ := occupy_spec o hN g1 (by rw [hs2]; exact g2) (by rw [hs5]; exact g3)
      refine ⟨b' :: bs, some (b1.base + i * granularity), by rw [tryBlocks, e1]; simp only [e2],
        by intro h; simp at h, ?_⟩
      intro a hr
      injection hr with hr
      refine ⟨[], b, b', bs, i, forall2_refl _, hw, rfl, by rw [← hr, hs1], g2, g3, p1, by rw [p2, hs1],
        by rw [p3, hs2], by rw [p4, hs4], by rw [p5, hs3], ?_⟩
      intro k
      rw [p6, hs5]

theorem units_apart {base i n j m : Nat}
    (h : Apart (base + i * granularity, n * granularity) (base + j * granularity, m * granularity)) :
    i + n ≤ j ∨ j + m ≤ i := by
  unfold Apart granularity at h
  simp only at h
  omega

theorem apart_units {base i n j m : Nat} (h : i + n ≤ j ∨ j + m ≤ i) :
    Apart (base + i * granularity, n * granularity) (base + j * granularity, m * granularity) := by
  unfold Apart granularity
  simp only
  omega

/-- Units of different blocks are apart. -/
theorem blocks_apart {b c : Block N} (h : Apart b.region c.region) {i n j m : Nat} (hi : i + n ≤ b.areaSize)
    (hj : j + m ≤ c.areaSize) :
    Apart (b.base + i * granularity, n * granularity) (c.base + j * granularity, m * granularity) := by
  unfold Apart Block.region granularity at *
  simp only at *
  omega

theorem within_apart {x : Nat} {p q : Nat × Nat} (h : Apart p q) (hx : Within x p) : ¬ Within x q := by
  unfold Apart at h; unfold Within at *; omega

theorem within_unit {x base i j n : Nat} (h1 : i ≤ j) (h2 : j < i + n)
    (h : Within x (base + j * granularity, granularity)) : Within x (base + i * granularity, n * granularity) := by
  have e1 : i * granularity ≤ j * granularity := Nat.mul_le_mul_right _ h1
  have e2 : (j + 1) * granularity ≤ (i + n) * granularity := Nat.mul_le_mul_right _ h2
  rw [Nat.add_mul, Nat.add_mul, Nat.one_mul] at e2
  unfold Within at *
  simp only at *
  generalize i * granularity = a at *
  generalize j * granularity = b at *
  generalize n * granularity = c at *
  generalize granularity = g at *
  omega

/-- Any two members of a pairwise apart list around a given element. -/
theorem pairwise_mid {R : Block N → Block N → Prop} {l1 l2 : List (Block N)} {b : Block N}
    (h : (l1 ++ b :: l2).Pairwise R) : (∀ x ∈ l1, R x b) ∧ (∀ x ∈ l2, R b x) := by
  rw [List.pairwise_append] at h
  obtain ⟨_, h2, h3⟩ := h
  rw [List.pairwise_cons] at h2
  exact ⟨fun x hx => h3 x hx b (by simp), h2.1⟩

theorem pairwise_replace {l1 l2 : List (Block N)} {b b' : Block N} (hr : b'.region = b.region)
    (h : (l1 ++ b :: l2).Pairwise fun a b => Apart a.region b.region) :
    (l1 ++ b' :: l2).Pairwise fun a b => Apart a.region b.region := by
  rw [List.pairwise_append, List.pairwise_cons] at h ⊢
  obtain ⟨h1, ⟨h2, h3⟩, h4⟩ := h
  refine ⟨h1, ⟨fun x hx => by rw [hr]; exact h2 x hx, h3⟩, ?_⟩
  intro x hx y hy
  rcases List.mem_cons.1 hy with rfl | hy
  · rw [hr]; exact h4 x hx b (by simp)
  · exact h4 x hx y (by simp [hy])

theorem mem_mid {α : Type} {l1 l2 : List α} {a x : α} : x ∈ l1 ++ a :: l2 ↔ x = a ∨ x ∈ l1 ∨ x ∈ l2 := by
  simp only [List.mem_append, List.mem_cons]
  tauto

/-- Occupying units of a block. -/
theorem Inv.occupied {o : Order} {h : Heap N} {mem : Nat → UInt8} {live : List (Nat × Nat)}
    {l1 l2 : List (Block N)} {b b' : Block N} {i area : Nat} (hb : h.blocks = l1 ++ b :: l2)
    (hi : Inv o ⟨h, mem, live⟩) (ha : 0 < area) (hia : i + area ≤ b.areaSize)
    (hfree : ∀ k, i ≤ k → k < i + area → bitAt o b.bits k = false)
    (hw : Wf o b' 0 0) (hbase : b'.base = b.base) (hsize : b'.areaSize = b.areaSize)
    (hused : b'.areaUsed = b.areaUsed + area)
    (hbits : ∀ k, bitAt o b'.bits k = if i ≤ k ∧ k < i + area then true else bitAt o b.bits k) :
    Inv o ⟨{ h with blocks := l1 ++ b' :: l2, totalUsed := h.totalUsed + area }, mem,
      (b.base + i * granularity, area * granularity) :: live⟩ ∧
    (∀ p ∈ live, Apart (b.base + i * granularity, area * granularity) p) ∧
    (∀ x, Within x (b.base + i * granularity, area * granularity) → mem x = 0) := by
  obtain ⟨h1, h2, h3, h4, h5, h6, h7, h8⟩ := hi
  simp only [hb] at h1 h2 h3 h4 h6 h7
  have hreg : b'.region = b.region := by unfold Block.region; rw [hbase, hsize]
  have hbm : b ∈ l1 ++ b :: l2 := by simp
  have happart : ∀ p ∈ live, Apart (b.base + i * granularity, area * granularity) p := by
    intro p hp
    obtain ⟨c, hc, j, n, g1, g2, g3, g4⟩ := h4 p hp
    rw [g2]
    rcases mem_mid.1 hc with rfl | hc | hc
    · apply apart_units
      apply Classical.byContradiction
      intro hcon
      have h1' := hfree (max i j) (by omega) (by omega)
      have h2' := g4 (max i j) (by omega) (by omega)
      rw [h1'] at h2'; simp at h2'
    · exact apart_symm (blocks_apart ((pairwise_mid h3).1 c hc) g3 hia)
    · exact blocks_apart ((pairwise_mid h3).2 c hc) hia g3
  refine ⟨⟨?_, ?_, pairwise_replace hreg h3, ?_, ?_, ?_, ?_, ?_⟩, happart, ?_⟩
  · intro x hx
    rcases mem_mid.1 hx with rfl | hx | hx
    · exact hw
    · exact h1 x (mem_mid.2 (.inr (.inl hx)))
    · exact h1 x (mem_mid.2 (.inr (.inr hx)))
  · intro x hx
    rcases mem_mid.1 hx with rfl | hx | hx
    · rw [hsize]; exact h2 b hbm
    · exact h2 x (mem_mid.2 (.inr (.inl hx)))
    · exact h2 x (mem_mid.2 (.inr (.inr hx)))
  · intro p hp
    rcases List.mem_cons.1 hp with rfl | hp
    · refine ⟨b', by simp, i, area, ha, by rw [hbase], by rw [hsize]; exact hia, ?_⟩
      intro k k1 k2
      rw [hbits, if_pos ⟨k1, k2⟩]
    · obtain ⟨c, hc, j, n, g1, g2, g3, g4⟩ := h4 p hp
      rcases mem_mid.1 hc with rfl | hc | hc
      · refine ⟨b', by simp, j, n, g1, by rw [hbase]; exact g2, by rw [hsize]; exact g3, ?_⟩
        intro k k1 k2
        rw [hbits]
        split
        · rfl
        · exact g4 k k1 k2
      · exact ⟨c, mem_mid.2 (.inr (.inl hc)), j, n, g1, g2, g3, g4⟩
      · exact ⟨c, mem_mid.2 (.inr (.inr hc)), j, n, g1, g2, g3, g4⟩
  · exact List.pairwise_cons.2 ⟨happart, h5⟩
  · intro c hc j j1 j2
    rcases mem_mid.1 hc with rfl | hc | hc
    · rw [hbits] at j2
      by_cases hr : i ≤ j ∧ j < i + area
      · rw [if_pos hr] at j2; simp at j2
      · rw [if_neg hr] at j2
        rw [hbase]
        rw [hsize] at j1
        exact h6 b hbm j j1 j2
    · exact h6 c (mem_mid.2 (.inr (.inl hc))) j j1 j2
    · exact h6 c (mem_mid.2 (.inr (.inr hc))) j j1 j2
  · show h.totalUsed + area = _
    rw [h7]
    simp only [List.map_append, List.sum_append, List.map_cons, List.sum_cons, hused]
    omega
  · show (h.totalUsed + area) * granularity = _
    rw [List.map_cons, List.sum_cons, ← h8, Nat.add_mul, Nat.add_comm]
  · intro x hx
    -- the unit `x` belongs to
    obtain ⟨k, k1, k2, k3⟩ : ∃ k, i ≤ k ∧ k < i + area ∧ Within x (b.base + k * granularity, granularity) := by
      refine ⟨(x - b.base) / granularity, ?_⟩
      unfold Within granularity at *
      simp only at *
      omega
    exact h6 b hbm k (by omega) (hfree k k1 k2) x k3

theorem allocUnits_spec {size area : Nat} (h : allocUnits size = some area) (hsz : size < 2 ^ 64) :
    0 < area ∧ area < 2 ^ 21 ∧ size ≤ area * granularity := by
  unfold allocUnits granularity at h
  simp only at h
  split at h
  · simp at h
  · injection h with h
    unfold granularity
    omega

theorem ideal_ge (c size : Nat) : size ≤ idealBlockSize c size ∧
    idealBlockSize c size ≤ size + 2 ^ 24 := by
  unfold idealBlockSize
  have hbs : (1024 * 1024) <<< min c 4 ≤ 2 ^ 24 ∧ 0 < (1024 * 1024) <<< min c 4 := by
    have : min c 4 ≤ 4 := Nat.min_le_right _ _
    generalize min c 4 = m at *
    obtain h | h | h | h | h : m = 0 ∨ m = 1 ∨ m = 2 ∨ m = 3 ∨ m = 4 := by omega
    all_goals subst h; decide
  simp only
  generalize (1024 * 1024) <<< min c 4 = bs at *
  split
  · have h1 := le_numGranularized_mul hbs.2 size
    have h2 := Nat.div_mul_le_self (size + bs - 1) bs
    unfold numGranularized at h1
    omega
  · omega

theorem newBlock_small {c area : Nat} (h : area < 2 ^ 21) :
    area ≤ numGranularized (idealBlockSize c (area * granularity)) granularity ∧
    numGranularized (idealBlockSize c (area * granularity)) granularity < 2 ^ 22 := by
  have := ideal_ge c (area * granularity)
  generalize idealBlockSize c (area * granularity) = s at *
  unfold numGranularized granularity at *
  omega

theorem forall2_length {bs bs' : List (Block N)} (h : List.Forall₂ SameArea bs bs') : bs'.length = bs.length :=
  h.length_eq.symm

/-- The allocator adds an empty, zeroed block. -/
theorem Inv.addBlock {o : Order} {h : Heap N} {mem : Nat → UInt8} {live : List (Nat × Nat)} {b : Block N}
    (hi : Inv o ⟨h, mem, live⟩) (hw : Wf o b 0 0) (hz : ∀ k, bitAt o b.bits k = false) (hu : b.areaUsed = 0)
    (hs : b.areaSize < 2 ^ 22) (hd : ∀ x ∈ h.blocks, Apart x.region b.region) :
    Inv o ⟨{ h with blocks := h.blocks ++ [b] }, zeroed mem b.base (b.areaSize * granularity), live⟩ := by
  obtain ⟨h1, h2, h3, h4, h5, h6, h7, h8⟩ := hi
  refine ⟨?_, ?_, ?_, ?_, h5, ?_, ?_, h8⟩
  · intro x hx
    rcases List.mem_append.1 hx with hx | hx
    · exact h1 x hx
    · rw [List.mem_singleton.1 hx]; exact hw
  · intro x hx
    rcases List.mem_append.1 hx with hx | hx
    · exact h2 x hx
    · rw [List.mem_singleton.1 hx]; exact hs
  · show (h.blocks ++ [b]).Pairwise _
    rw [List.pairwise_append]
    refine ⟨h3, List.pairwise_singleton _ _, ?_⟩
    intro x hx y hy
    rw [List.mem_singleton.1 hy]; exact hd x hx
  · intro p hp
    obtain ⟨c, hc, g⟩ := h4 p hp
    exact ⟨c, List.mem_append_left _ hc, g⟩
  · intro c hc i i1 i2 x hx
    show zeroed mem b.base (b.areaSize * granularity) x = 0
    unfold zeroed
    split
    · rfl
    · next hx' =>
      rcases List.mem_append.1 hc with hc | hc
      · exact h6 c hc i i1 i2 x hx
      · rw [List.mem_singleton.1 hc] at i1 hx
        exfalso
        apply hx'
        unfold Within granularity at *
        simp only at *
        omega
  · show h.totalUsed = _
    rw [h7]
    simp [hu]

theorem zeroed_live {o : Order} {h : Heap N} {mem : Nat → UInt8} {live : List (Nat × Nat)}
    (hi : Inv o ⟨h, mem, live⟩) {base len : Nat} (hd : ∀ x ∈ h.blocks, Apart x.region (base, len)) :
    ∀ p ∈ live, ∀ x, Within x p → zeroed mem base len x = mem x := by
  intro p hp x hx
  obtain ⟨c, hc, i, n, g1, g2, g3, _⟩ := hi.live p hp
  unfold zeroed
  split
  · next hx' =>
    exfalso
    have := hd c hc
    rw [g2] at hx
    unfold Apart Block.region Within granularity at *
    simp only at *
    omega
  · rfl

/-- An allocation. -/
theorem alloc_spec (o : Order) (hN : 0 < N) {w : World N} (hi : Inv o w) {size : Nat} {newBase : Option Nat}
    (hsz : size < 2 ^ 64) (hf : FreshBase w size newBase) :
    ∃ w' r, w.alloc o size newBase = some (w', r) ∧ Inv o w' ∧
      (r = none → w'.live = w.live ∧ ((allocUnits size).isSome → newBase = none)) ∧
      (∀ a sz, r = some (a, sz) → w'.live = (a, sz) :: w.live ∧ size ≤ sz ∧ sz < size + granularity ∧
        (∀ p ∈ w.live, Apart (a, sz) p) ∧ (∀ x, Within x (a, sz) → w'.mem x = 0)) ∧
      (∀ p ∈ w.live, ∀ x, Within x p → w'.mem x = w.mem x) := by
  obtain ⟨h, mem, live⟩ := w
  unfold World.alloc Heap.alloc
  cases hu : allocUnits size with
  | none =>
    simp only [Nat.lt_irrefl, gt_iff_lt, if_false]
    exact ⟨_, _, rfl, hi, fun _ => ⟨rfl, by simp⟩, by intro a sz hr; simp at hr, fun _ _ _ _ => rfl⟩
  | some area =>
    obtain ⟨ha, ha2, hge⟩ := allocUnits_spec hu hsz
    have hlt : area * granularity < size + granularity := by
      unfold allocUnits granularity at hu
      simp only at hu
      split at hu
      · simp at hu
      · injection hu with hu
        unfold granularity
        omega
    obtain ⟨bs', r, e1, hn, hs⟩ := tryBlocks_spec o hN ha h.blocks hi.wf
    simp only [e1]
    cases r with
    | some addr =>
      obtain ⟨l1, b, b', l2, i, q1, q2, q3, q4, q5, q6, q7, q8, q9, q10, q11, q12⟩ := hs addr rfl
      have hi' := hi.same q1 q2
      obtain ⟨r1, r2, r3⟩ := hi'.occupied (h := { h with blocks := l1 ++ b :: l2 }) rfl ha q5 q6 q7 q8 q9 q11 q12
      have hlen : ¬ (bs'.length > h.blocks.length) := by
        have := forall2_length q1
        rw [q3]
        simp only [List.length_append, List.length_cons] at *
        omega
      simp only [if_neg hlen]
      refine ⟨_, _, rfl, ?_, by intro h; simp at h, ?_, fun _ _ _ _ => rfl⟩
      · rw [q3, q4]; exact r1
      · intro a sz hr
        injection hr with hr
        injection hr with hr1 hr2
        subst hr1; subst hr2
        refine ⟨rfl, hge, hlt, ?_, ?_⟩
        · rw [q4]; exact r2
        · rw [q4]; exact r3
    | none =>
      obtain ⟨q1, q2⟩ := hn rfl
      have hi' := hi.same q1 q2
      have hlen := forall2_length q1
      cases newBase with
      | none =>
        have hlen' : ¬ (bs'.length > h.blocks.length) := by omega
        simp only [if_neg hlen']
        exact ⟨_, _, rfl, hi', fun _ => ⟨rfl, fun _ => by trivial⟩, by intro a sz hr; simp at hr, fun _ _ _ _ => rfl⟩
      | some base =>
        simp only [hlen]
        obtain ⟨as, has⟩ : ∃ as, as = numGranularized (idealBlockSize h.blocks.length (area * granularity)) granularity :=
          ⟨_, rfl⟩
        rw [← has]
        have hsmall := newBlock_small (c := h.blocks.length) ha2
        rw [← has] at hsmall
        have hfresh := hf base area rfl hu
        simp only [← has] at hfresh
        have hfresh' : ∀ x ∈ bs', Apart x.region (base, as * granularity) := by
          intro x hx
          obtain ⟨y, hy, hss⟩ := (forall2_mem q1).2 x hx
          rw [hss.region_eq]; exact hfresh y hy
        obtain ⟨nw, nz⟩ := newBlock_wf (N := N) o hN base as
        have hadd := hi'.addBlock nw nz rfl hsmall.2 hfresh'
        have hwx : Wf o { newBlock N base as with searchStart := area, largest := as - area } 0 area := by
          refine ⟨nw.len, nw.send, ?_, nw.used⟩
          intro k k1 k2 _
          exact ⟨by show area ≤ k; omega, k1⟩
        obtain ⟨b', e2, p1, p2, p3, p4, p5, p6⟩ := occupy_spec o hN hwx (by show 0 + area ≤ as; omega)
          (fun k _ _ => nz k)
        rw [e2]
        simp only [List.dropLast_concat, List.length_append, List.length_cons, List.length_nil, hlen,
          List.getLast?_append, List.getLast?_singleton, Option.some_or,
          gt_iff_lt, Nat.lt_add_one, if_true, Nat.zero_add]
        obtain ⟨r1, r2, r3⟩ := hadd.occupied (h := { h with blocks := bs' ++ [newBlock N base as] })
          (l1 := bs') (l2 := []) (b := newBlock N base as) (i := 0) rfl ha (by show 0 + area ≤ as; omega)
          (fun k _ _ => nz k) p1 p2 p3 p5 p6
        have hb0 : (newBlock N base as).base + 0 * granularity = base := by show base + 0 * granularity = base; omega
        rw [hb0] at r1 r2 r3
        have hbb : b'.base = base := p2
        have hba : b'.areaSize = as := p3
        rw [hbb, hba]
        refine ⟨_, _, rfl, ?_, by intro h; simp at h, ?_, ?_⟩
        · obtain ⟨a1, a2, a3, a4, a5, a6, a7, a8⟩ := r1
          exact ⟨a1, a2, a3, a4, a5, a6, a7, a8⟩
        · intro a sz hr
          injection hr with hr
          injection hr with hr1 hr2
          subst hr1; subst hr2
          exact ⟨rfl, hge, hlt, r2, r3⟩
        · exact zeroed_live hi hfresh

/-! ## Releasing -/

theorem cleanupScan_spec : ∀ (bs : List (Block N)) (n : Nat),
    List.Sublist (cleanupScan n bs).1 bs ∧
    (∀ b ∈ bs, b ∈ (cleanupScan n bs).1 ∨ b.areaUsed = 0) ∧
    ((cleanupScan n bs).1.map (·.areaUsed)).sum = (bs.map (·.areaUsed)).sum := by
  intro bs
  induction bs with
  | nil => intro n; cases n <;> exact ⟨.slnil, by intro b hb; simp at hb, rfl⟩
  | cons b bs ih =>
    intro n
    cases n with
    | zero => exact ⟨List.Sublist.refl _, fun x hx => .inl hx, rfl⟩
    | succ n =>
      rw [cleanupScan]
      by_cases hc : b.areaUsed = 0 ∧ b.static = false
      · rw [if_pos hc]
        obtain ⟨h1, h2, h3⟩ := ih n
        refine ⟨.cons _ h1, ?_, ?_⟩
        · intro x hx
          rcases List.mem_cons.1 hx with rfl | hx
          · exact .inr hc.1
          · exact h2 x hx
        · show ((cleanupScan n bs).1.map (·.areaUsed)).sum = _
          rw [h3, List.map_cons, List.sum_cons, hc.1, Nat.zero_add]
      · rw [if_neg hc]
        obtain ⟨h1, h2, h3⟩ := ih (n + 1)
        refine ⟨.cons_cons _ h1, ?_, ?_⟩
        · intro x hx
          rcases List.mem_cons.1 hx with rfl | hx
          · exact .inl (by simp)
          · rcases h2 x hx with h | h
            · exact .inl (List.mem_cons_of_mem _ h)
            · exact .inr h
        · show ((b :: (cleanupScan (n + 1) bs).1).map (·.areaUsed)).sum = _
          rw [List.map_cons, List.sum_cons, h3, List.map_cons, List.sum_cons]

theorem Inv.cleaned {o : Order} {h : Heap N} {mem : Nat → UInt8} {live : List (Nat × Nat)}
    (hi : Inv o ⟨h, mem, live⟩) (n : Nat) : Inv o ⟨h.cleanup n, mem, live⟩ := by
  obtain ⟨h1, h2, h3, h4, h5, h6, h7, h8⟩ := hi
  obtain ⟨c1, c2, c3⟩ := cleanupScan_spec h.blocks.reverse n
  have hsub : List.Sublist (h.cleanup n).blocks h.blocks := by
    show List.Sublist (cleanupScan n h.blocks.reverse).1.reverse h.blocks
    have := c1.reverse
    rwa [List.reverse_reverse] at this
  have hmem : ∀ b ∈ (h.cleanup n).blocks, b ∈ h.blocks := fun b hb => hsub.subset hb
  have hkeep : ∀ b ∈ h.blocks, b ∈ (h.cleanup n).blocks ∨ b.areaUsed = 0 := by
    intro b hb
    rcases c2 b (List.mem_reverse.2 hb) with h | h
    · exact .inl (List.mem_reverse.2 h)
    · exact .inr h
  refine ⟨fun b hb => h1 b (hmem b hb), fun b hb => h2 b (hmem b hb), h3.sublist hsub, ?_, h5,
    fun b hb => h6 b (hmem b hb), ?_, h8⟩
  · intro p hp
    obtain ⟨b, hb, i, m, g1, g2, g3, g4⟩ := h4 p hp
    rcases hkeep b hb with h | h
    · exact ⟨b, h, i, m, g1, g2, g3, g4⟩
    · exfalso
      have := cnt_zero (f := bitAt o b.bits) (n := b.areaSize) (by rw [← (h1 b hb).used]; exact h) i (by omega)
      rw [g4 i (Nat.le_refl _) (by omega)] at this
      simp at this
  · show h.totalUsed = _
    rw [h7]
    show _ = ((cleanupScan n h.blocks.reverse).1.reverse.map (·.areaUsed)).sum
    rw [List.map_reverse, List.sum_reverse, c3, List.map_reverse, List.sum_reverse]

theorem releaseIn_spec (o : Order) {addr size : Nat} {b b' : Block N} : ∀ (l1 l2 : List (Block N)),
    (∀ x ∈ l1, x.owns addr = false) → b.owns addr = true → b.release o addr size = some b' →
    releaseIn o addr size (l1 ++ b :: l2) = some (l1 ++ b' :: l2) := by
  intro l1
  induction l1 with
  | nil => intro l2 _ h2 h3; simp only [List.nil_append, releaseIn, h2, if_true, h3]
  | cons x l1 ih =>
    intro l2 h1 h2 h3
    rw [List.cons_append, releaseIn, h1 x (by simp)]
    simp only [Bool.false_eq_true, if_false]
    rw [ih l2 (fun y hy => h1 y (by simp [hy])) h2 h3]
    rfl

theorem release_inv (o : Order) (hN : 0 < N) {w : World N} (hi : Inv o w) {addr size : Nat}
    (hc : CleanRelease w addr size) :
    ∃ w', w.release o addr size = some w' ∧ Inv o w' ∧ w'.mem = w.mem ∧ w'.live = w.live.erase (addr, size) := by
  obtain ⟨h, mem, live⟩ := w
  obtain ⟨hl, hz⟩ := hc
  obtain ⟨b, hb, i, n, g1, g2, g3, g4⟩ := hi.live _ hl
  injection g2 with ga gs
  obtain ⟨l1, l2, hbl⟩ := List.append_of_mem hb
  simp only at hbl
  have hdisj := hi.disj
  simp only [hbl] at hdisj
  obtain ⟨b', e1, p1, p2, p3, p4, p5, p6⟩ := release_spec o hN (hi.wf b hb) g3 g4
  rw [← ga, ← gs] at e1
  have hown : b.owns addr = true := by
    unfold Block.owns
    rw [ga]
    simp only [Bool.and_eq_true, decide_eq_true_eq]
    unfold granularity
    omega
  have hnown : ∀ x ∈ l1, x.owns addr = false := by
    intro x hx
    have hap := (pairwise_mid hdisj).1 x hx
    cases ho : x.owns addr with
    | false => rfl
    | true =>
      exfalso
      unfold Block.owns at ho hown
      simp only [Bool.and_eq_true, decide_eq_true_eq] at ho hown
      unfold Apart Block.region at hap
      simp only at hap
      omega
  have e2 := releaseIn_spec o l1 l2 hnown hown e1
  have hunits : numGranularized size granularity = n := by
    rw [gs]; exact numGranularized_mul (by decide) n
  have hperm := List.perm_cons_erase hl
  have hpd : ((addr, size) :: live.erase (addr, size)).Pairwise Apart :=
    (hperm.pairwise_iff (fun {a b} h => apart_symm h)).1 hi.liveDisj
  rw [List.pairwise_cons] at hpd
  have hreg : b'.region = b.region := by unfold Block.region; rw [p2, p3]
  obtain ⟨h1, h2, h3, h4, h5, h6, h7, h8⟩ := hi
  simp only [hbl] at h1 h2 h3 h4 h6 h7
  have hsum : (live.map (·.2)).sum = size + ((live.erase (addr, size)).map (·.2)).sum := by
    rw [(hperm.map (·.2)).sum_eq]; simp
  have hbm : b ∈ l1 ++ b :: l2 := by simp
  have hinv : Inv o ⟨{ h with blocks := l1 ++ b' :: l2, totalUsed := h.totalUsed - n }, mem,
      live.erase (addr, size)⟩ := by
    refine ⟨?_, ?_, pairwise_replace hreg h3, ?_, hpd.2, ?_, ?_, ?_⟩
    · intro x hx
      rcases mem_mid.1 hx with rfl | hx | hx
      · exact p1
      · exact h1 x (mem_mid.2 (.inr (.inl hx)))
      · exact h1 x (mem_mid.2 (.inr (.inr hx)))
    · intro x hx
      rcases mem_mid.1 hx with rfl | hx | hx
      · rw [p3]; exact h2 b hbm
      · exact h2 x (mem_mid.2 (.inr (.inl hx)))
      · exact h2 x (mem_mid.2 (.inr (.inr hx)))
    · intro p hp
      obtain ⟨c, hcm, j, m, k1, k2, k3, k4⟩ := h4 p (List.mem_of_mem_erase hp)
      rcases mem_mid.1 hcm with rfl | hcm | hcm
      · refine ⟨b', by simp, j, m, k1, by rw [p2]; exact k2, by rw [p3]; exact k3, ?_⟩
        intro k q1 q2
        have hap := hpd.1 p hp
        rw [k2, ga, gs] at hap
        have := units_apart hap
        rw [p6, if_neg (by omega)]
        exact k4 k q1 q2
      · exact ⟨c, mem_mid.2 (.inr (.inl hcm)), j, m, k1, k2, k3, k4⟩
      · exact ⟨c, mem_mid.2 (.inr (.inr hcm)), j, m, k1, k2, k3, k4⟩
    · intro c hcm j j1 j2 x hx
      rcases mem_mid.1 hcm with rfl | hcm | hcm
      · rw [p6] at j2
        rw [p2] at hx
        rw [p3] at j1
        by_cases hr : i ≤ j ∧ j < i + n
        · apply hz
          rw [ga, gs]
          exact within_unit hr.1 hr.2 hx
        · rw [if_neg hr] at j2
          exact h6 b hbm j j1 j2 x hx
      · exact h6 c (mem_mid.2 (.inr (.inl hcm))) j j1 j2 x hx
      · exact h6 c (mem_mid.2 (.inr (.inr hcm))) j j1 j2 x hx
    · show h.totalUsed - n = _
      rw [h7]
      simp only [List.map_append, List.sum_append, List.map_cons, List.sum_cons]
      omega
    · show (h.totalUsed - n) * granularity = _
      rw [Nat.sub_mul, h8, ← gs]
      show (live.map (·.2)).sum - size = ((live.erase (addr, size)).map (·.2)).sum
      rw [hsum, Nat.add_sub_cancel_left]
  have hrel : ∃ w', World.release o ⟨h, mem, live⟩ addr size = some w' ∧
      (w' = ⟨{ h with blocks := l1 ++ b' :: l2, totalUsed := h.totalUsed - n }, mem, live.erase (addr, size)⟩ ∨
       w' = ⟨({ h with blocks := l1 ++ b' :: l2, totalUsed := h.totalUsed - n } : Heap N).cleanup 1, mem,
          live.erase (addr, size)⟩) := by
    unfold World.release Heap.release
    simp only [hbl, e2, hunits]
    by_cases ht : h.totalUsed - n < h.threshold
    · rw [if_pos ht]
      exact ⟨_, rfl, .inr rfl⟩
    · rw [if_neg ht]
      exact ⟨_, rfl, .inl rfl⟩
  obtain ⟨w', ew, hw'⟩ := hrel
  refine ⟨w', ew, ?_, ?_, ?_⟩
  · rcases hw' with rfl | rfl
    · exact hinv
    · exact hinv.cleaned 1
  · rcases hw' with rfl | rfl <;> rfl
  · rcases hw' with rfl | rfl <;> rfl

/-! ## Reachable states -/

theorem init_inv (o : Order) (hN : 0 < N) (base : Nat) (mem : Nat → UInt8) : Inv o (World.init N base mem) := by
  obtain ⟨nw, nz⟩ := newBlock_wf (N := N) o hN base 1024
  refine ⟨?_, ?_, List.pairwise_singleton _ _, by intro p hp; simp [World.init] at hp, .nil, ?_,
    by simp [World.init, Heap.init, newBlock], by simp [World.init, Heap.init]⟩
  · intro b hb
    have hb' : b = { newBlock N base 1024 with static := true } := by
      simpa [World.init, Heap.init] using hb
    subst hb'
    exact ⟨nw.len, nw.send, nw.free, nw.used⟩
  · intro b hb
    have hb' : b = { newBlock N base 1024 with static := true } := by
      simpa [World.init, Heap.init] using hb
    subst hb'
    show 1024 < 2 ^ 22
    decide
  · intro b hb i i1 _ x hx
    have hb' : b = { newBlock N base 1024 with static := true } := by
      simpa [World.init, Heap.init] using hb
    subst hb'
    show zeroed mem base (1024 * granularity) x = 0
    unfold zeroed
    rw [if_pos]
    have i1' : i < 1024 := i1
    have hx' : Within x (base + i * granularity, granularity) := hx
    unfold Within granularity at *
    simp only at *
    omega

theorem step_inv (o : Order) (hN : 0 < N) {w : World N} (hi : Inv o w) (op : Op) (hl : Legal o w op)
    (hs : op.SizeOk) : ∃ w', step o w op = some w' ∧ Inv o w' := by
  cases op with
  | alloc size newBase =>
    obtain ⟨w', r, e, hi', _⟩ := alloc_spec o hN hi hs hl
    exact ⟨w', by rw [step, e]; rfl, hi'⟩
  | release addr size =>
    obtain ⟨w', e, hi', _⟩ := release_inv o hN hi hl
    exact ⟨w', by rw [step, e], hi'⟩
  | resize addr size newSize newBase =>
    obtain ⟨w1, e1, hi1, _⟩ := release_inv o hN hi hl.1
    obtain ⟨w', r, e, hi', _⟩ := alloc_spec o hN hi1 hs (hl.2 w1 e1)
    exact ⟨w', by rw [step, e1]; simp only [e]; rfl, hi'⟩
  | write addr value =>
    refine ⟨_, rfl, ?_⟩
    obtain ⟨p, hp, hx⟩ := hl
    obtain ⟨h1, h2, h3, h4, h5, h6, h7, h8⟩ := hi
    refine ⟨h1, h2, h3, h4, h5, ?_, h7, h8⟩
    intro b hb i i1 i2 x hx'
    show (if x = addr then value else w.mem x) = 0
    by_cases hxa : x = addr
    · exfalso
      subst hxa
      obtain ⟨c, hc, j, m, k1, k2, k3, k4⟩ := h4 p hp
      rw [k2] at hx
      by_cases hbc : b = c
      · subst hbc
        have : j ≤ i ∧ i < j + m := by
          unfold Within granularity at *; simp only at *; omega
        rw [k4 i this.1 this.2] at i2
        simp at i2
      · have hap : Apart b.region c.region := by
          have hall := List.Pairwise.forall_of_forall_of_flip (R := fun x y : Block N => x ≠ y → Apart x.region y.region)
            (l := w.heap.blocks) (fun x _ h => absurd rfl h)
            (h3.imp (fun {a b} h => fun (_ : a ≠ b) => h)) (h3.imp (fun {a b} h => fun (_ : b ≠ a) => apart_symm h))
          exact hall hb hc hbc
        unfold Apart Block.region Within granularity at *
        simp only at *
        omega
    · rw [if_neg hxa]
      exact h6 b hb i i1 i2 x hx'
  | cleanup =>
    obtain ⟨h, mem, live⟩ := w
    exact ⟨_, rfl, hi.cleaned _⟩


theorem reach_inv (o : Order) (hN : 0 < N) {w : World N} (hr : Reach N o w) : Inv o w := by
  induction hr with
  | init base mem => exact init_inv o hN base mem
  | step op _ hl he ih =>
    obtain ⟨w', e, hi⟩ := step_inv o hN ih op hl.1 hl.2
    rw [e] at he
    injection he with he
    subst he
    exact hi

/-! ## Theorems -/

/-- **C26**: no legal use of the allocator leads to undefined behaviour or to a violated
assertion: every operation succeeds in every reachable state, whatever the history of
allocations, releases, resizes, writes and cleanups was. -/
theorem C26_no_undefined_behaviour (o : Order) (hN : 0 < N) {w : World N} (hr : Reach N o w) (op : Op)
    (hl : Legal o w op) (hs : op.SizeOk) : ∃ w', step o w op = some w' := by
  obtain ⟨w', e, _⟩ := step_inv o hN (reach_inv o hN hr) op hl hs
  exact ⟨w', e⟩

/-- **C26**: an allocation that succeeds returns at least the requested number of bytes (and
less than 1024 more), all of them zero, not overlapping any live allocation, and does
not change the content of any live allocation.  It fails only if the request is empty or
exceeds 2 GB, or if a new block is needed and the C library is out of memory. -/
theorem C26_alloc_returns_fresh_zeroed_memory (o : Order) (hN : 0 < N) {w : World N} (hr : Reach N o w)
    {size : Nat} {newBase : Option Nat} (hsz : size < 2 ^ 64) (hf : FreshBase w size newBase) :
    ∃ w' r, w.alloc o size newBase = some (w', r) ∧
      (∀ addr len, r = some (addr, len) →
        size ≤ len ∧ len < size + 1024 ∧ w'.live = (addr, len) :: w.live ∧
        (∀ p ∈ w.live, Apart (addr, len) p) ∧ (∀ x, Within x (addr, len) → w'.mem x = 0)) ∧
      (r = none → w'.live = w.live ∧ (0 < size → size ≤ 2 ^ 31 - 1024 → newBase = none)) ∧
      (∀ p ∈ w.live, ∀ x, Within x p → w'.mem x = w.mem x) := by
  obtain ⟨w', r, e, _, h1, h2, h3⟩ := alloc_spec o hN (reach_inv o hN hr) hsz hf
  refine ⟨w', r, e, ?_, ?_, h3⟩
  · intro a sz hr
    obtain ⟨g1, g2, g3, g4, g5⟩ := h2 a sz hr
    exact ⟨g2, g3, g1, g4, g5⟩
  · intro hr
    obtain ⟨g1, g2⟩ := h1 hr
    refine ⟨g1, fun hp hle => g2 ?_⟩
    unfold allocUnits granularity
    simp only
    rw [if_neg (by omega)]
    rfl

/-- **C26**: in every reachable state the live allocations do not overlap, every one of them lies within one
block of memory the allocator still holds, those blocks do not overlap either, and the allocator
accounts exactly for the memory in use. -/
theorem C26_live_allocations_disjoint_and_owned (o : Order) (hN : 0 < N) {w : World N} (hr : Reach N o w) :
    w.live.Pairwise Apart ∧
    (∀ p ∈ w.live, 0 < p.2 ∧ ∃ b ∈ w.heap.blocks, ∀ x, Within x p → Within x b.region) ∧
    w.heap.blocks.Pairwise (fun a b => Apart a.region b.region) ∧
    w.heap.totalUsed * 1024 = (w.live.map (·.2)).sum := by
  obtain ⟨h1, h2, h3, h4, h5, h6, h7, h8⟩ := reach_inv o hN hr
  refine ⟨h5, ?_, h3, h8⟩
  intro p hp
  obtain ⟨b, hb, i, n, g1, g2, g3, g4⟩ := h4 p hp
  subst g2
  refine ⟨by simp only; unfold granularity; omega, b, hb, ?_⟩
  intro x hx
  unfold Within Block.region granularity at *
  simp only at *
  omega

/-- **C26**: a live allocation whose content is zero can always be released; afterwards it is not live and
nothing else has changed. -/
theorem C26_release_succeeds (o : Order) (hN : 0 < N) {w : World N} (hr : Reach N o w) {addr size : Nat}
    (hc : CleanRelease w addr size) :
    ∃ w', w.release o addr size = some w' ∧ w'.mem = w.mem ∧ w'.live = w.live.erase (addr, size) ∧
      (addr, size) ∉ w'.live := by
  have hi := reach_inv o hN hr
  obtain ⟨w', e, _, h2, h3⟩ := release_inv o hN hi hc
  refine ⟨w', e, h2, h3, ?_⟩
  rw [h3]
  have hnd : w.live.Nodup := by
    refine hi.liveDisj.imp_of_mem ?_
    intro a b ha _ hab heq
    subst heq
    obtain ⟨c, _, i, n, g1, g2, _⟩ := hi.live a ha
    unfold Apart at hab
    rw [g2] at hab
    unfold granularity at hab
    simp only at hab
    omega
  exact fun h => (List.Nodup.mem_erase_iff hnd).1 h |>.1 rfl

/-! ### The hypotheses are met -/

/-- Two allocations, a release and another allocation in the static block. -/
example : ((step .lsb (World.init 64 4096 fun _ => 7) (.alloc 3000 none)).bind fun w =>
    (step .lsb w (.alloc 100 none)).bind fun w =>
    (step .lsb w (.release 4096 3072)).bind fun w =>
    (step .lsb w (.alloc 1500 none)).map fun w => w.live) = some [(4096, 2048), (7168, 1024)] := by
  decide +kernel

/-- A request that does not fit the static block gets a new block. -/
example : ((step .lsb (World.init 64 4096 fun _ => 7) (.alloc 3000000 (some 10000000))).map fun w =>
    (w.live, w.heap.blocks.length, w.mem 10000000, w.mem 0)) = some ([(10000000, 3000320)], 2, 0, 7) := by
  decide +kernel

example : FreshBase (World.init 64 4096 fun _ => 7) 3000000 (some 10000000) := by
  intro base area h1 h2 b hb
  injection h1 with h1
  have h3 : area = 2930 := by
    have : allocUnits 3000000 = some 2930 := by decide
    rw [this] at h2; injection h2 with h2; exact h2.symm
  subst h1 h3
  have hb' : b = { newBlock 64 4096 1024 with static := true } := by
    simpa [World.init, Heap.init] using hb
  subst hb'
  left
  show 4096 + 1024 * 1024 ≤ 10000000
  decide

end Blend2D.ZeroAlloc
