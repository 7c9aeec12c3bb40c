import Verif.FillMask.Model
import Verif.Fill.Lemmas
namespace Blend2D.FillMask
open Fill (Comp Row span spanMasked spanOpaque pixelMasked pixelOpaque Good)

variable {P : Type} {C : Comp P}

/-- The elements from `a` on, `n` of them, are changed by `f`; the others are as they were. -/
def Seg (a n : Nat) (f : Nat → P → P) (l l' : List P) : Prop :=
  l'.length = l.length ∧ ∀ k, l'[k]? = if a ≤ k ∧ k < a + n then (l[k]?).map (f (k - a)) else l[k]?

theorem Seg.one {a : Nat} {f : P → P} {l : List P} (h : a < l.length) : Seg a 1 (fun _ => f) l (l.set a (f l[a])) := by
  refine ⟨List.length_set .., fun k => ?_⟩
  rw [List.getElem?_set]
  by_cases e : a = k
  · subst e
    rw [if_pos rfl, if_pos h, if_pos (by omega), List.getElem?_eq_getElem h]; rfl
  · rw [if_neg e, if_neg (by omega)]

theorem Seg.append {a n m : Nat} {f g : Nat → P → P} {l l' l'' : List P} (h1 : Seg a n f l l') (h2 : Seg (a + n) m g l' l'')
    {e : Nat → P → P} (he1 : ∀ j, j < n → e j = f j) (he2 : ∀ j, j < m → e (n + j) = g j) : Seg a (n + m) e l l'' := by
  refine ⟨h2.1.trans h1.1, fun k => ?_⟩
  rw [h2.2 k, h1.2 k]
  by_cases c1 : a ≤ k ∧ k < a + n
  · rw [if_neg (by omega), if_pos c1, if_pos (by omega), he1 _ (by omega)]
  · by_cases c2 : a + n ≤ k ∧ k < a + n + m
    · rw [if_pos c2, if_neg c1, if_pos (by omega)]
      have := he2 (k - (a + n)) (by omega)
      rw [show n + (k - (a + n)) = k - a by omega] at this
      rw [this]
    · rw [if_neg c2, if_neg c1, if_neg (by omega)]

theorem pixelMasked_seg {r : Row P} {d : Nat} (m : Nat) (h : d < r.dst.length) :
    ∃ r', pixelMasked C r d m = some r' ∧ r'.pos = r.pos + 1 ∧ Seg d 1 (fun _ p => C.masked r.pos p m) r.dst r'.dst :=
  ⟨_, by simp only [pixelMasked, List.getElem?_eq_getElem h, Option.bind_eq_bind, Option.bind_some]; rfl, rfl, Seg.one h⟩

theorem pixelOpaque_seg {r : Row P} {d : Nat} (h : d < r.dst.length) :
    ∃ r', pixelOpaque C r d = some r' ∧ r'.pos = r.pos + 1 ∧ Seg d 1 (fun _ p => C.full r.pos p) r.dst r'.dst :=
  ⟨_, by simp only [pixelOpaque, List.getElem?_eq_getElem h, Option.bind_eq_bind, Option.bind_some]; rfl, rfl, Seg.one h⟩

theorem vspan_seg {mem : Mem} {f : Nat → Nat} : ∀ (n : Nat) (r : Row P) (d : Nat) (ptr : Int) (F : Nat → Nat), d + n < r.dst.length →
    (∀ j, j ≤ n → ∃ b, mem (ptr + j) = some b ∧ f b = F j) →
    ∃ r', vspan C f mem n r d ptr = some r' ∧ r'.pos = r.pos + (n + 1) ∧
      Seg d (n + 1) (fun j p => C.masked (r.pos + j) p (F j)) r.dst r'.dst := by
  intro n
  induction n with
  | zero =>
    intro r d ptr F hd hm
    obtain ⟨b, e1, e2⟩ := hm 0 (Nat.le_refl _)
    obtain ⟨r', h1, h2, h3⟩ := pixelMasked_seg (C := C) (f b) (r := r) (d := d) (by omega)
    refine ⟨r', ?_, h2, ?_⟩
    · simp only [Int.natCast_zero, Int.add_zero] at e1
      simp only [vspan, e1, Option.bind_eq_bind, Option.bind_some, h1]
    · refine ⟨h3.1, fun k => ?_⟩
      rw [h3.2 k]
      by_cases c : d ≤ k ∧ k < d + 1
      · rw [if_pos c, if_pos (by omega), show k - d = 0 by omega, e2]; rfl
      · rw [if_neg c, if_neg (by omega)]
  | succ n ih =>
    intro r d ptr F hd hm
    obtain ⟨b, e1, e2⟩ := hm 0 (Nat.zero_le _)
    obtain ⟨r1, h1, h2, h3⟩ := pixelMasked_seg (C := C) (f b) (r := r) (d := d) (by omega)
    obtain ⟨r2, g1, g2, g3⟩ := ih r1 (d + 1) (ptr + 1) (fun j => F (j + 1)) (by rw [h3.1]; omega) (fun j hj => by
      obtain ⟨b, a1, a2⟩ := hm (j + 1) (by omega)
      refine ⟨b, ?_, a2⟩
      rw [← a1]; congr 1; push_cast; omega)
    refine ⟨r2, ?_, by omega, ?_⟩
    · simp only [Int.natCast_zero, Int.add_zero] at e1
      simp only [vspan, e1, Option.bind_eq_bind, Option.bind_some, h1, g1]
    · have := h3.append g3 (e := fun j p => C.masked (r.pos + j) p (F j)) (fun j hj => by
        rw [show j = 0 by omega, e2]; rfl) (fun j _ => by
        funext p; rw [h2, Nat.add_comm 1 j, Nat.add_assoc r.pos 1 j, Nat.add_comm 1 j])
      rw [show n + 1 + 1 = 1 + (n + 1) by omega]
      exact this

theorem spanMasked_seg {m : Nat} : ∀ (n : Nat) (r : Row P) (d : Nat), d + n < r.dst.length →
    ∃ r', spanMasked C m n r d = some r' ∧ r'.pos = r.pos + (n + 1) ∧
      Seg d (n + 1) (fun j p => C.masked (r.pos + j) p m) r.dst r'.dst := by
  intro n
  induction n with
  | zero =>
    intro r d hd
    obtain ⟨r', h1, h2, h3⟩ := pixelMasked_seg (C := C) m (r := r) (d := d) (by omega)
    refine ⟨r', h1, h2, h3.1, fun k => ?_⟩
    rw [h3.2 k]
    by_cases c : d ≤ k ∧ k < d + 1
    · rw [if_pos c, if_pos (by omega), show k - d = 0 by omega]; rfl
    · rw [if_neg c, if_neg (by omega)]
  | succ n ih =>
    intro r d hd
    obtain ⟨r1, h1, h2, h3⟩ := pixelMasked_seg (C := C) m (r := r) (d := d) (by omega)
    obtain ⟨r2, g1, g2, g3⟩ := ih r1 (d + 1) (by rw [h3.1]; omega)
    refine ⟨r2, by simp only [spanMasked, Option.bind_eq_bind, Option.bind_some, h1, g1], by omega, ?_⟩
    have := h3.append g3 (e := fun j p => C.masked (r.pos + j) p m) (fun j hj => by
      rw [show j = 0 by omega]; rfl) (fun j _ => by
      funext p; rw [h2, Nat.add_assoc r.pos 1 j])
    rw [show n + 1 + 1 = 1 + (n + 1) by omega]
    exact this

theorem spanOpaque_seg : ∀ (n : Nat) (r : Row P) (d : Nat), d + n < r.dst.length →
    ∃ r', spanOpaque C n r d = some r' ∧ r'.pos = r.pos + (n + 1) ∧
      Seg d (n + 1) (fun j p => C.full (r.pos + j) p) r.dst r'.dst := by
  intro n
  induction n with
  | zero =>
    intro r d hd
    obtain ⟨r', h1, h2, h3⟩ := pixelOpaque_seg (C := C) (r := r) (d := d) (by omega)
    refine ⟨r', h1, h2, h3.1, fun k => ?_⟩
    rw [h3.2 k]
    by_cases c : d ≤ k ∧ k < d + 1
    · rw [if_pos c, if_pos (by omega), show k - d = 0 by omega]; rfl
    · rw [if_neg c, if_neg (by omega)]
  | succ n ih =>
    intro r d hd
    obtain ⟨r1, h1, h2, h3⟩ := pixelOpaque_seg (C := C) (r := r) (d := d) (by omega)
    obtain ⟨r2, g1, g2, g3⟩ := ih r1 (d + 1) (by rw [h3.1]; omega)
    refine ⟨r2, by simp only [spanOpaque, Option.bind_eq_bind, Option.bind_some, h1, g1], by omega, ?_⟩
    have := h3.append g3 (e := fun j p => C.full (r.pos + j) p) (fun j hj => by
      rw [show j = 0 by omega]; rfl) (fun j _ => by
      funext p; rw [h2, Nat.add_assoc r.pos 1 j])
    rw [show n + 1 + 1 = 1 + (n + 1) by omega]
    exact this

theorem span_seg (hC : Good C) {m : Nat} (n : Nat) (r : Row P) (d : Nat) (hn : 0 < n) (hd : d + n ≤ r.dst.length) :
    ∃ r', span C m n r d = some r' ∧ r'.pos = r.pos + n ∧
      Seg d n (fun j p => C.masked (r.pos + j) p m) r.dst r'.dst := by
  cases n with
  | zero => omega
  | succ n =>
    rw [span]
    by_cases c : C.optimize = true ∧ m = 255
    · simp only [if_pos c]
      obtain ⟨r', h1, h2, h3⟩ := spanOpaque_seg (C := C) n r d (by omega)
      refine ⟨r', h1, h2, h3.1, fun k => ?_⟩
      rw [h3.2 k, c.2]
      simp only [hC.full c.1]
    · simp only [if_neg c]
      exact spanMasked_seg n r d (by omega)

/-! ## Commands -/

/-- The masks that the command gives to the pixels of its span are `F`. -/
def Gives (alpha : Nat) (mem : Mem) (cmd : Cmd) (F : Nat → Nat) : Prop :=
  (cmd.type = 1 ∧ 0 ≤ cmd.data ∧ cmd.data ≤ 255 ∧ ∀ x, cmd.x0 ≤ x → x < cmd.x1 → (F x : Int) = cmd.data) ∨
  ((cmd.type = 2 ∨ cmd.type = 3) ∧ ∀ x, cmd.x0 ≤ x → x < cmd.x1 → ∃ b, mem (cmd.data + (x - cmd.x0 : Nat)) = some b ∧
    (if cmd.type = 3 then withAlpha b alpha else b) = F x)

/-- The command for the next scanline. -/
def Cmd.next (cmd : Cmd) : Cmd := if cmd.type = 1 then cmd else { cmd with data := cmd.data + cmd.adv }

theorem one_ok (hC : Good C) {alpha : Nat} {mem : Mem} {cmd : Cmd} {F : Nat → Nat} (hg : Gives alpha mem cmd F)
    (hx : cmd.x0 < cmd.x1) {pre post : List Cmd} {row : Row P} {d x : Nat} (hpos : row.pos = cmd.x0)
    (hd : d + (cmd.x1 - cmd.x0) ≤ row.dst.length) :
    ∃ r', one C alpha mem cmd (cmd.x1 - cmd.x0) ⟨row, d, x, pre.length + 1, pre ++ cmd :: post⟩ =
        some ⟨r', d + (cmd.x1 - cmd.x0), x, pre.length + 1, pre ++ cmd.next :: post⟩ ∧ r'.pos = cmd.x1 ∧
      Seg d (cmd.x1 - cmd.x0) (fun j p => C.masked (cmd.x0 + j) p (F (cmd.x0 + j))) row.dst r'.dst := by
  rcases hg with ⟨h1, h2, h3, h4⟩ | ⟨h1, h2⟩
  · obtain ⟨r', e1, e2, e3⟩ := span_seg hC (m := cmd.data.toNat) (cmd.x1 - cmd.x0) row d (by omega) hd
    refine ⟨r', ?_, by omega, ?_⟩
    · simp only [one, if_pos h1, if_pos (And.intro h2 h3), e1, Option.bind_eq_bind, Option.bind_some, Cmd.next]; rfl
    · refine ⟨e3.1, fun k => ?_⟩
      rw [e3.2 k, hpos]
      by_cases c : d ≤ k ∧ k < d + (cmd.x1 - cmd.x0)
      · rw [if_pos c, if_pos c]
        congr 1
        funext p
        have := h4 (cmd.x0 + (k - d)) (by omega) (by omega)
        show C.masked _ p _ = C.masked _ p (F (cmd.x0 + (k - d)))
        rw [show F (cmd.x0 + (k - d)) = cmd.data.toNat by omega]
      · rw [if_neg c, if_neg c]
  · obtain ⟨n, hn⟩ : ∃ n, cmd.x1 - cmd.x0 = n + 1 := ⟨cmd.x1 - cmd.x0 - 1, by omega⟩
    have ht : ¬ cmd.type = 1 := by omega
    obtain ⟨r', e1, e2, e3⟩ := vspan_seg (C := C) (mem := mem) (f := if cmd.type = 3 then fun m => withAlpha m alpha else id) n row d
      cmd.data (fun j => F (cmd.x0 + j)) (by omega) (fun j hj => by
        obtain ⟨b, a1, a2⟩ := h2 (cmd.x0 + j) (by omega) (by omega)
        refine ⟨b, ?_, ?_⟩
        · rw [← a1]; congr 2; omega
        · rw [← a2]; split <;> rfl)
    rw [hn]
    refine ⟨r', ?_, by omega, ?_⟩
    · simp only [one, if_neg ht, e1, Option.bind_eq_bind, Option.bind_some, Cmd.next, Nat.add_sub_cancel]
      simp
    · rw [hpos] at e3; exact e3

/-- The commands of a scanline from `a` to `b`, one directly behind the other. -/
inductive Chain (alpha : Nat) (mem : Mem) (F : Nat → Nat) : Nat → Nat → List Cmd → Prop
  | nil (a : Nat) : Chain alpha mem F a a []
  | cons {cmd : Cmd} {b : Nat} {l : List Cmd} : cmd.x0 < cmd.x1 → Gives alpha mem cmd F → Chain alpha mem F cmd.x1 b l →
      Chain alpha mem F cmd.x0 b (cmd :: l)

theorem Chain.le {alpha : Nat} {mem : Mem} {F : Nat → Nat} {a b : Nat} {l : List Cmd} (h : Chain alpha mem F a b l) : a ≤ b := by
  induction h with
  | nil => exact Nat.le_refl _
  | cons h1 _ _ ih => omega

theorem Gives.type {alpha : Nat} {mem : Mem} {cmd : Cmd} {F : Nat → Nat} (h : Gives alpha mem cmd F) : cmd.type ≠ 0 := by
  rcases h with ⟨h, _⟩ | ⟨h, _⟩ <;> omega

theorem rest_ok (hC : Good C) {alpha : Nat} {mem : Mem} {F : Nat → Nat} {a b : Nat} {l : List Cmd} (h : Chain alpha mem F a b l) :
    ∀ (fuel : Nat) (pre : List Cmd) (e : Cmd) (post : List Cmd) (row : Row P) (d : Nat), e.type = 0 → l.length < fuel →
      row.pos = a → d + (b - a) ≤ row.dst.length →
      ∃ r', rest C alpha mem fuel ⟨row, d, a, pre.length, pre ++ (l ++ e :: post)⟩ =
          some ⟨r', d + (b - a), b, (pre ++ l).length, (pre ++ l.map Cmd.next) ++ e :: post⟩ ∧ r'.pos = b ∧
        Seg d (b - a) (fun j p => C.masked (a + j) p (F (a + j))) row.dst r'.dst := by
  induction h with
  | nil a =>
    intro fuel pre e post row d he hf hp hd
    obtain ⟨fuel, rfl⟩ : ∃ f, fuel = f + 1 := ⟨fuel - 1, by simp at hf; omega⟩
    refine ⟨row, ?_, hp, rfl, fun k => ?_⟩
    · simp only [rest, List.nil_append, List.getElem?_append_right (Nat.le_refl _), Nat.sub_self, List.getElem?_cons_zero,
        Option.bind_eq_bind, Option.bind_some, if_pos he, List.append_nil, List.map_nil, Nat.add_zero]
      rfl
    · rw [if_neg (by omega)]
  | @cons cmd b l h1 h2 h3 ih =>
    intro fuel pre e post row d he hf hp hd
    obtain ⟨fuel, rfl⟩ : ∃ f, fuel = f + 1 := ⟨fuel - 1, by simp at hf; omega⟩
    have hle := h3.le
    obtain ⟨r1, o1, o2, o3⟩ := one_ok hC h2 h1 (pre := pre) (post := l ++ e :: post) (row := row) (d := d) (x := cmd.x1) hp (by omega)
    obtain ⟨r2, q1, q2, q3⟩ := ih fuel (pre ++ [cmd.next]) e post r1 (d + (cmd.x1 - cmd.x0)) he (by simp at hf; omega) o2 (by
      rw [o3.1]; omega)
    refine ⟨r2, ?_, q2, ?_⟩
    · simp only [rest, List.cons_append, List.getElem?_append_right (Nat.le_refl _), Nat.sub_self, List.getElem?_cons_zero,
        Option.bind_eq_bind, Option.bind_some, if_neg h2.type, ne_eq, not_true, if_false, if_neg (show ¬ cmd.x1 < cmd.x0 by omega), o1]
      have : (pre ++ [cmd.next]).length = pre.length + 1 := by simp
      rw [this] at q1
      simp only [List.append_assoc, List.singleton_append] at q1
      rw [q1]
      simp
      omega
    · have := o3.append q3 (e := fun j p => C.masked (cmd.x0 + j) p (F (cmd.x0 + j))) (fun j _ => rfl) (fun j _ => by
        funext p; rw [show cmd.x0 + (cmd.x1 - cmd.x0 + j) = cmd.x1 + j by omega])
      rw [show b - cmd.x0 = cmd.x1 - cmd.x0 + (b - cmd.x1) by omega]
      exact this

theorem line_ok (hC : Good C) {alpha : Nat} {mem : Mem} {F : Nat → Nat} {a b : Nat} {l : List Cmd} (h : Chain alpha mem F a b l)
    (hab : a < b) (pre : List Cmd) (e : Cmd) (post : List Cmd) (row : Row P) (d x : Nat) (he : e.type = 0)
    (hd : d + b ≤ row.dst.length) :
    ∃ r' x', line C alpha mem ⟨row, d, x, pre.length, pre ++ (l ++ e :: post)⟩ =
        some ⟨r', d, x', (pre ++ l).length, (pre ++ l.map Cmd.next) ++ e :: post⟩ ∧
      Seg (d + a) (b - a) (fun j p => C.masked (a + j) p (F (a + j))) row.dst r'.dst := by
  cases h with
  | nil => omega
  | @cons cmd b l h1 h2 h3 =>
    have hle := h3.le
    obtain ⟨r1, o1, o2, o3⟩ := one_ok hC h2 h1 (pre := pre) (post := l ++ e :: post) (row := { row with pos := cmd.x0 })
      (d := d + cmd.x0) (x := cmd.x1) rfl (by simp only []; omega)
    obtain ⟨r2, q1, q2, q3⟩ := rest_ok hC h3 ((pre ++ cmd.next :: (l ++ e :: post)).length + 1) (pre ++ [cmd.next]) e post r1
      (d + cmd.x0 + (cmd.x1 - cmd.x0)) he (by simp; omega) o2 (by rw [o3.1]; simp only []; omega)
    refine ⟨r2, b, ?_, ?_⟩
    · simp only [line, List.cons_append, List.getElem?_append_right (Nat.le_refl _), Nat.sub_self, List.getElem?_cons_zero,
        Option.bind_eq_bind, Option.bind_some, ne_eq, h2.type, not_false_eq_true, if_true, if_neg (show ¬ cmd.x1 < cmd.x0 by omega), o1]
      have : (pre ++ [cmd.next]).length = pre.length + 1 := by simp
      rw [this] at q1
      simp only [List.append_assoc, List.singleton_append] at q1
      rw [q1]
      simp only [Option.bind_some]
      rw [if_neg (by omega)]
      simp
      omega
    · have := o3.append q3 (e := fun j p => C.masked (cmd.x0 + j) p (F (cmd.x0 + j))) (fun j _ => rfl) (fun j _ => by
        funext p; rw [show cmd.x0 + (cmd.x1 - cmd.x0 + j) = cmd.x1 + j by omega])
      rw [show b - cmd.x0 = cmd.x1 - cmd.x0 + (b - cmd.x1) by omega]
      exact this

/-! ## Programs -/

/-- Commands for scanlines that repeat, and how often. -/
abbrev Group := List Cmd × Nat

/-- The commands in memory. -/
def enc : List Group → List Cmd
  | [] => []
  | (l, n) :: gs => l ++ (repeats n :: enc gs)

def nexts : Nat → List Cmd → List Cmd
  | 0, l => l
  | n + 1, l => nexts n (l.map Cmd.next)

/-- The groups give the masks `F` to the scanlines from `y` on, `h` of them. -/
def Fits (alpha : Nat) (mem : Mem) (F : Nat → Nat → Nat) (a b : Nat) : List Group → (y h : Nat) → Prop
  | [], _, h => h = 0
  | (l, n) :: gs, y, h => 0 < n ∧ n < 2 ^ 32 ∧ (∀ t, t < n → t < h → Chain alpha mem (F (y + t)) a b (nexts t l)) ∧
      (n < h → Fits alpha mem F a b gs (y + n) (h - n))

theorem lines_ok {C : Nat → Comp P} (hC : ∀ y, Good (C y)) {alpha : Nat} {mem : Mem} {F : Nat → Nat → Nat} {a b stride : Nat}
    (hab : a < b) (hbs : b ≤ stride) : ∀ (h : Nat) (gs : List Group) (y : Nat) (pre post : List Cmd) (row : Row P) (x : Nat),
      Fits alpha mem F a b gs y (h + 1) → (y + h + 1) * stride ≤ row.dst.length →
      ∃ s, lines C alpha mem stride h y ⟨row, y * stride, x, pre.length, pre ++ (enc gs ++ post)⟩ = some s ∧
        s.row.dst.length = row.dst.length ∧
        ∀ k, s.row.dst[k]? = if y ≤ k / stride ∧ k / stride < y + (h + 1) ∧ a ≤ k % stride ∧ k % stride < b
          then (row.dst[k]?).map (fun p => (C (k / stride)).masked (k % stride) p (F (k / stride) (k % stride))) else row.dst[k]? := by
  have hs : 0 < stride := by omega
  -- what one scanline does
  have hrow : ∀ (y : Nat) (l l' : List P), Seg (y * stride + a) (b - a) (fun j p => (C y).masked (a + j) p (F y (a + j))) l l' →
      ∀ k, l'[k]? = if k / stride = y ∧ a ≤ k % stride ∧ k % stride < b
        then (l[k]?).map (fun p => (C y).masked (k % stride) p (F y (k % stride))) else l[k]? := by
    intro y l l' h k
    rw [h.2 k]
    have hk := Nat.div_add_mod k stride
    have hm := Nat.mod_lt k hs
    by_cases c : k / stride = y ∧ a ≤ k % stride ∧ k % stride < b
    · have e : y * stride + k % stride = k := by rw [← c.1, Nat.mul_comm]; exact hk
      rw [if_pos c, if_pos (by omega)]
      show Option.map (fun p => (C y).masked (a + (k - (y * stride + a))) p (F y (a + (k - (y * stride + a))))) _ = _
      rw [show a + (k - (y * stride + a)) = k % stride by omega]
    · rw [if_neg c, if_neg]
      rintro ⟨c1, c2⟩
      have : k / stride = y := by
        rw [Nat.div_eq_iff hs]
        constructor
        · omega
        · have : y * stride + stride - 1 = y * stride + (stride - 1) := by omega
          omega
      have e : y * stride + k % stride = k := by rw [← this, Nat.mul_comm]; exact hk
      omega
  intro h
  induction h with
  | zero =>
    intro gs y pre post row x hf hl
    match gs, hf with
    | [], hf => exact absurd hf (by simp [Fits])
    | (l, n) :: gs, ⟨f1, f2, f3, f4⟩ =>
      have hc := f3 0 f1 (by omega)
      simp only [nexts, Nat.add_zero] at hc
      have hl' : y * stride + b ≤ row.dst.length := by
        rw [Nat.add_zero, Nat.add_mul, Nat.one_mul] at hl; omega
      obtain ⟨r1, x1, g1, g2⟩ := line_ok (hC y) hc hab pre (repeats n) (enc gs ++ post) row (y * stride) x rfl hl'
      refine ⟨⟨r1, y * stride, x1, (pre ++ l).length, (pre ++ l.map Cmd.next) ++ repeats n :: (enc gs ++ post)⟩, ?_, g2.1, ?_⟩
      · simp only [lines, enc, List.append_assoc, List.cons_append] at g1 ⊢
        rw [g1]
        simp only [Option.bind_eq_bind, Option.bind_some]
        rw [show (pre ++ l).length = (pre ++ l.map Cmd.next).length by simp, ← List.append_assoc,
          List.getElem?_append_right (Nat.le_refl _)]
        simp
      · intro k
        simp only []
        rw [hrow y _ _ g2 k]
        by_cases c : k / stride = y ∧ a ≤ k % stride ∧ k % stride < b
        · rw [if_pos c, if_pos (by omega), c.1]
        · rw [if_neg c, if_neg (by omega)]
  | succ h ih =>
    intro gs y pre post row x hf hl
    match gs, hf with
    | [], hf => exact absurd hf (by simp [Fits])
    | (l, n) :: gs, ⟨f1, f2, f3, f4⟩ =>
      have hc := f3 0 f1 (by omega)
      simp only [nexts, Nat.add_zero] at hc
      have hl' : y * stride + b ≤ row.dst.length := by
        have : (y + 1) * stride ≤ (y + (h + 1) + 1) * stride := Nat.mul_le_mul_right _ (by omega)
        rw [Nat.add_mul, Nat.one_mul] at this; omega
      obtain ⟨r1, x1, g1, g2⟩ := line_ok (hC y) hc hab pre (repeats n) (enc gs ++ post) row (y * stride) x rfl hl'
      have hk : ((repeats n).x0 + (2 ^ 32 - 1)) % 2 ^ 32 = n - 1 := by
        simp only [repeats]; omega
      -- the state for the next scanline
      have hcont : ∃ (gs' : List Group) (pre' : List Cmd), Fits alpha mem F a b gs' (y + 1) (h + 1) ∧
          lines C alpha mem stride (h + 1) y ⟨row, y * stride, x, pre.length, pre ++ (enc ((l, n) :: gs) ++ post)⟩ =
          lines C alpha mem stride h (y + 1) ⟨r1, (y + 1) * stride, x1, pre'.length, pre' ++ (enc gs' ++ post)⟩ := by
        have e1 : lines C alpha mem stride (h + 1) y ⟨row, y * stride, x, pre.length, pre ++ (enc ((l, n) :: gs) ++ post)⟩ =
            lines C alpha mem stride h (y + 1) ⟨r1, (y + 1) * stride, x1, if n - 1 ≠ 0 then pre.length else (pre ++ l).length + 1,
              (pre ++ l.map Cmd.next) ++ repeats (n - 1) :: (enc gs ++ post)⟩ := by
          simp only [lines, enc, List.append_assoc, List.cons_append] at g1 ⊢
          rw [g1]
          simp only [Option.bind_eq_bind, Option.bind_some]
          have el : (pre ++ l).length = (pre ++ l.map Cmd.next).length := by simp
          have eg : (pre ++ (l.map Cmd.next ++ repeats n :: (enc gs ++ post)))[(pre ++ l).length]? = some (repeats n) := by
            rw [el, ← List.append_assoc, List.getElem?_append_right (Nat.le_refl _)]
            simp
          have es : (pre ++ (l.map Cmd.next ++ repeats n :: (enc gs ++ post))).set (pre ++ l).length { repeats n with x0 := n - 1 } =
              pre ++ (l.map Cmd.next ++ repeats (n - 1) :: (enc gs ++ post)) := by
            rw [el, ← List.append_assoc, List.set_append_right _ _ (Nat.le_refl _)]
            simp [repeats]
          simp only [eg, Option.bind_some, hk, es, show y * stride + stride = (y + 1) * stride by rw [Nat.add_mul, Nat.one_mul]]
        by_cases hn : n - 1 ≠ 0
        · refine ⟨(l.map Cmd.next, n - 1) :: gs, pre, ⟨by omega, by omega, ?_, ?_⟩, ?_⟩
          · intro t t1 t2
            have := f3 (t + 1) (by omega) (by omega)
            rw [show y + (t + 1) = y + 1 + t by omega] at this
            exact this
          · intro c
            have := f4 (by omega)
            rw [show y + n = y + 1 + (n - 1) by omega, show h + 1 + 1 - n = h + 1 - (n - 1) by omega] at this
            exact this
          · rw [e1, if_pos hn]
            simp [enc]
        · have hn1 : n = 1 := by omega
          subst hn1
          refine ⟨gs, pre ++ (l.map Cmd.next ++ [repeats 0]), ?_, ?_⟩
          · have := f4 (by omega)
            simpa using this
          · rw [e1, if_neg hn]
            simp [Nat.add_assoc]
      obtain ⟨gs', pre', c1, c2⟩ := hcont
      obtain ⟨s, q1, q2, q3⟩ := ih gs' (y + 1) pre' post r1 x1 c1 (by
        rw [g2.1, show y + 1 + h + 1 = y + (h + 1) + 1 by omega]; exact hl)
      refine ⟨s, c2.trans q1, q2.trans g2.1, fun k => ?_⟩
      rw [q3 k]
      have hr := hrow y _ _ g2 k
      by_cases c : k / stride = y ∧ a ≤ k % stride ∧ k % stride < b
      · rw [if_neg (by omega), hr, if_pos c, if_pos (by omega), c.1]
      · rw [if_neg c] at hr
        rw [hr]
        by_cases c' : y + 1 ≤ k / stride ∧ k / stride < y + 1 + (h + 1) ∧ a ≤ k % stride ∧ k % stride < b
        · rw [if_pos c', if_pos (by omega)]
        · rw [if_neg c', if_neg (by omega)]

/-- The whole fill. -/
theorem fillMask_ok {C : Nat → Comp P} (hC : ∀ y, Good (C y)) {alpha : Nat} {mem : Mem} {F : Nat → Nat → Nat} {a b stride : Nat}
    (hab : a < b) (hbs : b ≤ stride) {gs : List Group} {y0 y1 : Nat} {cmds post : List Cmd} {dst : List P} (hy : y0 < y1)
    (he : cmds = enc gs ++ post) (hf : Fits alpha mem F a b gs y0 (y1 - y0)) (hl : y1 * stride ≤ dst.length) :
    ∃ dst', fillMask C alpha mem stride y0 y1 cmds dst = some dst' ∧ dst'.length = dst.length ∧
      ∀ k, dst'[k]? = if y0 ≤ k / stride ∧ k / stride < y1 ∧ a ≤ k % stride ∧ k % stride < b
        then (dst[k]?).map (fun p => (C (k / stride)).masked (k % stride) p (F (k / stride) (k % stride))) else dst[k]? := by
  obtain ⟨n, hn⟩ : ∃ n, y1 - y0 = n + 1 := ⟨y1 - y0 - 1, by omega⟩
  rw [hn] at hf
  obtain ⟨s, h1, h2, h3⟩ := lines_ok hC hab hbs n gs y0 [] post ⟨[], [], dst, 0⟩ 0 hf (by
    simp only []; rw [show y0 + n + 1 = y1 by omega]; exact hl)
  refine ⟨s.row.dst, ?_, h2, ?_⟩
  · simp only [List.nil_append, List.length_nil, ← he] at h1
    rw [fillMask, hn]
    simp only [h1]
    rfl
  · intro k
    have := h3 k
    rw [show y0 + (n + 1) = y1 by omega] at this
    exact this

end Blend2D.FillMask
