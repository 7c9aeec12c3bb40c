import Verif.FillMask.Lemmas
import Verif.FillMask.Spec
namespace Blend2D.FillMask
open Fill (Comp Row Good)
open Spec

/-! ## Buffers -/

def RowIs (mem : Mem) (at_ : Nat) (v : Nat → Nat) : Prop := ∀ i : Nat, i < 32 → mem ((at_ + i : Nat) : Int) = some (v i)

def upd (v : Nat → Nat) (i m : Nat) : Nat → Nat := fun k => if k = i then m else v k

theorem row_ok (b : Bufs) (at_ m : Nat) (h : at_ + 32 ≤ 96) (hm : m ≤ 255) :
    ∃ b', b.row at_ m = some b' ∧ b'.cmds = b.cmds ∧ RowIs b'.mem at_ (fun i => if i < 4 then 0 else m) ∧
      ∀ at2 v, (at2 + 32 ≤ at_ ∨ at_ + 32 ≤ at2) → RowIs b.mem at2 v → RowIs b'.mem at2 v := by
  refine ⟨_, if_pos h, rfl, ?_, ?_⟩
  · intro i hi
    simp only []
    by_cases c : i < 4
    · rw [if_pos (by omega), if_pos c]
    · rw [if_neg (by omega), if_pos (by omega), if_neg c, Nat.mod_eq_of_lt (by omega)]
  · intro at2 v h2 h3 i hi
    simp only []
    rw [if_neg (by omega), if_neg (by omega)]
    exact h3 i hi

theorem put_ok (b : Bufs) (at_ i m : Nat) (h : at_ + 32 ≤ 96) (hi : i < 32) (hm : m ≤ 255) :
    ∃ b', b.put (at_ + i) m = some b' ∧ b'.cmds = b.cmds ∧ (∀ v, RowIs b.mem at_ v → RowIs b'.mem at_ (upd v i m)) ∧
      ∀ at2 v, (at2 + 32 ≤ at_ ∨ at_ + 32 ≤ at2) → RowIs b.mem at2 v → RowIs b'.mem at2 v := by
  refine ⟨_, if_pos (by omega), rfl, ?_, ?_⟩
  · intro v hv k hk
    simp only [upd]
    by_cases c : k = i
    · rw [if_pos (by omega), if_pos c, Nat.mod_eq_of_lt (by omega)]
    · rw [if_neg (by omega), if_neg c]
      exact hv k hk
  · intro at2 v h2 h3 k hk
    simp only []
    rw [if_neg (by omega)]
    exact h3 k hk

/-- The three rows. -/
structure Rows (b : Bufs) (v0 v1 v2 : Nat → Nat) : Prop where
  r0 : RowIs b.mem 0 v0
  r1 : RowIs b.mem 32 v1
  r2 : RowIs b.mem 64 v2

theorem maskRows_ok {alpha fx0 fy0a fy1a : Nat} (h1 : fy0a / 2 ^ 8 ≤ 255) (h2 : fx0 * fy0a / 2 ^ 16 ≤ 255) (h3 : alpha ≤ 255)
    (h4 : fx0 * alpha / 2 ^ 8 ≤ 255) (h5 : fy1a / 2 ^ 8 ≤ 255) (h6 : fx0 * fy1a / 2 ^ 16 ≤ 255) :
    ∃ b, maskRows alpha fx0 fy0a fy1a = some b ∧ b.cmds = Bufs.new.cmds ∧
      Rows b (upd (fun i => if i < 4 then 0 else fy0a / 2 ^ 8) 4 (fx0 * fy0a / 2 ^ 16))
        (upd (fun i => if i < 4 then 0 else alpha) 4 (fx0 * alpha / 2 ^ 8))
        (upd (fun i => if i < 4 then 0 else fy1a / 2 ^ 8) 4 (fx0 * fy1a / 2 ^ 16)) := by
  obtain ⟨b1, e1, c1, r1, k1⟩ := row_ok Bufs.new 0 _ (by omega) h1
  obtain ⟨b2, e2, c2, r2, k2⟩ := put_ok b1 0 4 _ (by omega) (by omega) h2
  obtain ⟨b3, e3, c3, r3, k3⟩ := row_ok b2 32 _ (by omega) h3
  obtain ⟨b4, e4, c4, r4, k4⟩ := put_ok b3 32 4 _ (by omega) (by omega) h4
  obtain ⟨b5, e5, c5, r5, k5⟩ := row_ok b4 64 _ (by omega) h5
  obtain ⟨b6, e6, c6, r6, k6⟩ := put_ok b5 64 4 _ (by omega) (by omega) h6
  refine ⟨b6, ?_, by rw [c6, c5, c4, c3, c2, c1], ?_, ?_, ?_⟩
  · simp only [Nat.zero_add, Nat.reduceAdd] at e2 e4 e6
    simp only [maskRows, e1, e2, e3, e4, e5, Option.bind_eq_bind, Option.bind_some]
    exact e6
  · exact k6 _ _ (by omega) (k5 _ _ (by omega) (k4 _ _ (by omega) (k3 _ _ (by omega) (r2 _ r1))))
  · exact k6 _ _ (by omega) (k5 _ _ (by omega) (r4 _ r3))
  · exact r6 _ r5

theorem lastMasks_ok {b : Bufs} {v0 v1 v2 : Nat → Nat} (h : Rows b v0 v1 v2) {i alpha fx1 fy0a fy1a : Nat} (hi : i < 32)
    (h2 : fx1 * fy0a / 2 ^ 16 ≤ 255) (h4 : fx1 * alpha / 2 ^ 8 ≤ 255) (h6 : fx1 * fy1a / 2 ^ 16 ≤ 255) :
    ∃ b', lastMasks b i alpha fx1 fy0a fy1a = some b' ∧ b'.cmds = b.cmds ∧
      Rows b' (upd v0 i (fx1 * fy0a / 2 ^ 16)) (upd v1 i (fx1 * alpha / 2 ^ 8)) (upd v2 i (fx1 * fy1a / 2 ^ 16)) := by
  obtain ⟨b2, e2, c2, r2, k2⟩ := put_ok b 0 i _ (by omega) hi h2
  obtain ⟨b4, e4, c4, r4, k4⟩ := put_ok b2 32 i _ (by omega) hi h4
  obtain ⟨b6, e6, c6, r6, k6⟩ := put_ok b4 64 i _ (by omega) hi h6
  refine ⟨b6, ?_, by rw [c6, c4, c2], ?_, ?_, ?_⟩
  · rw [Nat.add_comm] at e2 e4 e6
    simp only [lastMasks, e2, e4, Option.bind_eq_bind, Option.bind_some]
    exact e6
  · exact k6 _ _ (by omega) (k4 _ _ (by omega) (r2 _ h.r0))
  · exact k6 _ _ (by omega) (r4 _ (k2 _ _ (by omega) h.r1))
  · exact r6 _ (k4 _ _ (by omega) (k2 _ _ (by omega) h.r2))

/-! ## The three programs -/

/-- The groups that `programs` writes. -/
def groups (h m0 : Nat) (top mid bot : List Cmd) : List Group :=
  (if m0 ≠ 0 then [(top, 1)] else []) ++ ((if h > 2 then [(mid, h - 2)] else []) ++ [(bot, 1)])

theorem twelve {l : List Cmd} (h : l.length = 12) : ∃ a0 a1 a2 a3 a4 a5 a6 a7 a8 a9 a10 a11,
    l = [a0, a1, a2, a3, a4, a5, a6, a7, a8, a9, a10, a11] := by
  match l, h with
  | [a0, a1, a2, a3, a4, a5, a6, a7, a8, a9, a10, a11], _ => exact ⟨_, _, _, _, _, _, _, _, _, _, _, _, rfl⟩

theorem programs_one {b : Bufs} (hb : b.cmds.length = 12) {h m0 : Nat} (hh : h < 2 ^ 32) (t m u : Cmd) :
    ∃ post, programs b h 2 m0 [t] [m] [u] = some ⟨enc (groups h m0 [t] [m] [u]) ++ post, b.mem⟩ := by
  obtain ⟨a0, a1, a2, a3, a4, a5, a6, a7, a8, a9, a10, a11, e⟩ := twelve hb
  obtain ⟨cmds, mem⟩ := b
  simp only [] at e
  subst e
  have hk : h > 2 → (h + 4294967294) % 4294967296 = h - 2 := fun _ => by omega
  by_cases c1 : m0 = 0 <;> by_cases c2 : h > 2
  · exact ⟨[a4, a5, a6, a7, a8, a9, a10, a11], by simp [programs, c1, c2, Bufs.cmd, List.zipIdx, groups, enc, hk c2]⟩
  · exact ⟨[a2, a3, a4, a5, a6, a7, a8, a9, a10, a11], by simp [programs, c1, c2, Bufs.cmd, List.zipIdx, groups, enc]⟩
  · exact ⟨[a6, a7, a8, a9, a10, a11], by simp [programs, c1, c2, Bufs.cmd, List.zipIdx, groups, enc, hk c2]⟩
  · exact ⟨[a4, a5, a6, a7, a8, a9, a10, a11], by simp [programs, c1, c2, Bufs.cmd, List.zipIdx, groups, enc]⟩

theorem programs_three {b : Bufs} (hb : b.cmds.length = 12) {h m0 : Nat} (hh : h < 2 ^ 32) (t t' t'' m m' m'' u u' u'' : Cmd) :
    ∃ post, programs b h 4 m0 [t, t', t''] [m, m', m''] [u, u', u''] = some ⟨enc (groups h m0 [t, t', t''] [m, m', m''] [u, u', u'']) ++ post, b.mem⟩ := by
  obtain ⟨a0, a1, a2, a3, a4, a5, a6, a7, a8, a9, a10, a11, e⟩ := twelve hb
  obtain ⟨cmds, mem⟩ := b
  simp only [] at e
  subst e
  have hk : h > 2 → (h + 4294967294) % 4294967296 = h - 2 := fun _ => by omega
  by_cases c1 : m0 = 0 <;> by_cases c2 : h > 2
  · exact ⟨[a8, a9, a10, a11], by simp [programs, c1, c2, Bufs.cmd, List.zipIdx, groups, enc, hk c2]⟩
  · exact ⟨[a4, a5, a6, a7, a8, a9, a10, a11], by simp [programs, c1, c2, Bufs.cmd, List.zipIdx, groups, enc]⟩
  · exact ⟨[], by simp [programs, c1, c2, Bufs.cmd, List.zipIdx, groups, enc, hk c2]⟩
  · exact ⟨[a8, a9, a10, a11], by simp [programs, c1, c2, Bufs.cmd, List.zipIdx, groups, enc]⟩

theorem nexts_fix {l : List Cmd} (h : l.map Cmd.next = l) : ∀ n, nexts n l = l
  | 0 => rfl
  | n + 1 => by rw [nexts, h, nexts_fix h n]

/-- What the three programs have to be. -/
theorem fits3 {alpha : Nat} {mem : Mem} {F : Nat → Nat → Nat} {a b h m0 m2 y0 y1 Y : Nat} {top mid bot : List Cmd} (hh : h < 2 ^ 32)
    (hy0 : y0 = Y + if m0 = 0 then 1 else 0) (hy1 : y1 = Y + h - if m2 = 0 then 1 else 0) (hy : y0 < y1)
    (ht : Chain alpha mem (F Y) a b top) (hm : ∀ y, Y < y → y < Y + h - 1 → Chain alpha mem (F y) a b mid)
    (hmid : mid.map Cmd.next = mid) (hb : 2 ≤ h → Chain alpha mem (F (Y + h - 1)) a b bot) :
    Fits alpha mem F a b (groups h m0 top mid bot) y0 (y1 - y0) := by
  have hbot : ∀ y n, y = Y + h - 1 → 2 ≤ h → n ≤ 1 → Fits alpha mem F a b [(bot, 1)] y n := by
    intro y n e h2 hn
    refine ⟨by omega, by omega, fun t t1 t2 => ?_, fun _ => by omega⟩
    rw [show t = 0 by omega, nexts, e]
    exact hb h2
  have hmids : ∀ y n, y = Y + 1 → 2 ≤ h → n ≤ h - 1 → Fits alpha mem F a b ((if h > 2 then [(mid, h - 2)] else []) ++ [(bot, 1)]) y n := by
    intro y n e h2 hn
    by_cases c : h > 2
    · rw [if_pos c]
      refine ⟨by omega, by omega, fun t t1 t2 => ?_, fun _ => hbot _ _ (by omega) h2 (by omega)⟩
      rw [nexts_fix hmid]
      exact hm _ (by omega) (by omega)
    · rw [if_neg c]
      exact hbot _ _ (by omega) h2 (by omega)
  have hle : y1 ≤ Y + h := by rw [hy1]; omega
  rw [groups]
  by_cases c : m0 = 0
  · rw [if_pos c] at hy0
    rw [if_neg (by simpa using c)]
    exact hmids _ _ hy0 (by omega) (by omega)
  · rw [if_neg c] at hy0
    rw [if_pos c]
    refine ⟨by omega, by omega, fun t t1 t2 => ?_, fun c' => hmids _ _ (by omega) (by omega) (by omega)⟩
    rw [show t = 0 by omega, nexts, show y0 + 0 = Y by omega]
    exact ht

/-! ## Chains -/

theorem chain_const {mem : Mem} {F : Nat → Nat} {a b m c : Nat} {l : List Cmd} (h : a < b) (hm : m ≤ 255)
    (hF : ∀ x, a ≤ x → x < b → F x = m) (hl : Chain 255 mem F b c l) : Chain 255 mem F a c (cmask a b m :: l) := by
  have h1 : (cmask a b m).x1 = b := by simp only [cmask, Cmd.x1]; omega
  have h2 : (cmask a b m).type = 1 := by simp only [cmask, Cmd.type]; omega
  refine Chain.cons (cmd := cmask a b m) (by rw [h1]; exact h) (.inl ⟨h2, by simp [cmask], by simp [cmask]; omega, ?_⟩) (by rw [h1]; exact hl)
  intro x x1 x2
  rw [h1] at x2
  rw [hF x x1 x2]; rfl

theorem chain_mem {mem : Mem} {F : Nat → Nat} {a b p c : Nat} {l : List Cmd} (h : a < b)
    (hF : ∀ x, a ≤ x → x < b → mem ((p + (x - a) : Nat) : Int) = some (F x)) (hl : Chain 255 mem F b c l) :
    Chain 255 mem F a c (vmask 2 a b (p : Nat) 0 :: l) := by
  have h1 : (vmask 2 a b (p : Nat) 0).x1 = b := by simp only [vmask, Cmd.x1]; omega
  have h2 : (vmask 2 a b (p : Nat) 0).type = 2 := by simp only [vmask, Cmd.type]; omega
  refine Chain.cons (cmd := vmask 2 a b (p : Nat) 0) (by rw [h1]; exact h) (.inr ⟨.inl h2, ?_⟩) (by rw [h1]; exact hl)
  intro x x1 x2
  rw [h1] at x2
  refine ⟨F x, ?_, by rw [h2]; rfl⟩
  have := hF x x1 x2
  rw [← this]
  congr 1

theorem next_cmask (a b m : Nat) : (cmask a b m).next = cmask a b m := by
  have h2 : (cmask a b m).type = 1 := by simp only [cmask, Cmd.type]; omega
  rw [Cmd.next, if_pos h2]

theorem next_vmask (a b : Nat) (p : Int) : (vmask 2 a b p 0).next = vmask 2 a b p 0 := by
  have h2 : (vmask 2 a b p 0).type = 2 := by simp only [vmask, Cmd.type]; omega
  rw [Cmd.next, if_neg (by omega)]
  simp [vmask]

/-! ## Arithmetic of masks -/

theorem mask_l (c f : Nat) : 256 * c * f / 65536 = c * f / 2 ^ 8 := by
  rw [Nat.mul_assoc, show 65536 = 256 * 256 by rfl, Nat.mul_div_mul_left _ _ (by omega)]

theorem mask_r (c f : Nat) : c * 256 * f / 65536 = c * f / 2 ^ 8 := by
  rw [Nat.mul_comm c 256, mask_l]

theorem mask_lr (f : Nat) : 256 * 256 * f / 65536 = f := by omega

theorem mask_assoc (c d f : Nat) : c * d * f / 65536 = c * (d * f) / 2 ^ 16 := by rw [Nat.mul_assoc]

theorem mask_le {c d f : Nat} (hc : c ≤ 256) (hd : d ≤ 256) : c * d * f / 65536 ≤ f := by
  have h1 : c * d ≤ 256 * 256 := Nat.mul_le_mul hc hd
  have h2 : c * d * f ≤ 256 * 256 * f := Nat.mul_le_mul_right _ h1
  omega

theorem cov_le (a b x : Nat) : cov a b x ≤ 256 := by rw [cov]; omega

theorem mask_mono {c c' d f : Nat} (h : c ≤ c') (hz : c' * d * f / 65536 = 0) : c * d * f / 65536 = 0 := by
  have h1 : c * d * f ≤ c' * d * f := Nat.mul_le_mul_right _ (Nat.mul_le_mul_right _ h)
  omega

end Blend2D.FillMask
