/-!
# Reference counted implementation objects (`blend2d/core/object_p.h`, `blend2d/core/object.cpp`)

Every container of the library is a 16 byte instance that either stores its content in place (SSO) or
points to a reference counted *impl*.  This file models instances, impls and the sharing between them,
for any in-place content `σ` and any impl content `β`.

Access to a freed impl is undefined behaviour, modelled by `none`.  This is the single threaded view;
the interleavings of the atomic counter are modelled in `Verif.RefCount`.
-/
namespace Blend2D.Cow

/-- An impl with its header (`BLObjectImplHeader`, `object_p.h:47-112`).  `base` is
`base_ref_count_value()`: 1 for mutable impls, 3 for immutable ones; `alive` is cleared by `free()`. -/
structure Block (β : Type) where
  rc : Nat
  base : Nat
  alive : Bool
  val : β
  deriving DecidableEq, Repr

/-- An instance (`BLObjectCore`, `BLObjectDetail`; `object.h:640-700`): in place, or a pointer to an impl. -/
inductive Core (σ : Type) where
  | sso (s : σ)
  | dyn (a : Nat)
  deriving DecidableEq, Repr

/-- The variables of the program and all impls ever allocated (an address is an index; addresses are not
reused, which makes a use after free visible). -/
structure World (σ β : Type) where
  vars : List (Core σ)
  heap : List (Block β)
  deriving DecidableEq, Repr

variable {σ β : Type}

/-- Dereferencing an impl pointer. -/
def World.block? (w : World σ β) (a : Nat) : Option (Block β) :=
  match w.heap[a]? with
  | some b => if b.alive then some b else none
  | none => none

/-- `is_instance_mutable` (`object_p.h:372-376`). -/
def World.isMutable (w : World σ β) : Core σ → Option Bool
  | .sso _ => some true
  | .dyn a => (w.block? a).map (fun b => b.rc == 1)

/-- `retain_instance` / `retain_impl` with `n = 1` (`object_p.h:341-346, 391-396`). -/
def World.retain (w : World σ β) : Core σ → Option (World σ β)
  | .sso _ => some w
  | .dyn a => do
    let b ← w.block? a
    return { w with heap := w.heap.set a { b with rc := b.rc + 1 } }

/-- `release_instance` = `deref_impl_and_test` followed by `free_impl` (`object_p.h:348-357`,
`array_p.h:28-31, 58-60`). -/
def World.release (w : World σ β) : Core σ → Option (World σ β)
  | .sso _ => some w
  | .dyn a => do
    let b ← w.block? a
    if b.rc = b.base then return { w with heap := w.heap.set a { b with rc := b.rc - 1, alive := false } }
    else return { w with heap := w.heap.set a { b with rc := b.rc - 1 } }

/-- A successful `bl_object_alloc_impl` / `bl_object_alloc_impl_external` (`object.cpp:38-89`). -/
def World.alloc (w : World σ β) (base : Nat) (v : β) : Core σ × World σ β :=
  (.dyn w.heap.length, { w with heap := w.heap ++ [⟨base, base, true, v⟩] })

/-- Overwriting the 16 bytes of an instance. -/
def World.setVar (w : World σ β) (i : Nat) (c : Core σ) : World σ β := { w with vars := w.vars.set i c }

/-- `replace_instance` (`array_p.h:62-69`). -/
def World.replace (w : World σ β) (i : Nat) (c : Core σ) : Option (World σ β) := do
  let old ← w.vars[i]?
  (w.setVar i c).release old

/-- A store through the pointer of an impl. -/
def World.setVal (w : World σ β) (a : Nat) (v : β) : World σ β :=
  match w.heap[a]? with
  | some b => { w with heap := w.heap.set a { b with val := v } }
  | none => w

/-! ## Representation relation -/

/-- Does the instance point to the impl `a`? -/
def Core.is (a : Nat) : Core σ → Bool
  | .dyn b => a == b
  | .sso _ => false

/-- Number of references to `a`. -/
def refs (cs : List (Core σ)) (a : Nat) : Nat := cs.countP (Core.is a)

variable {V : Type} (okS : σ → V → Prop) (okB : β → V → Prop)

/-- The instance `c` holds the value `v`. -/
def Holds (w : World σ β) (c : Core σ) (v : V) : Prop :=
  match c with
  | .sso s => okS s v
  | .dyn a => ∃ b, w.block? a = some b ∧ okB b.val v

/-- `w` represents the values `L` of its variables.  `es` are further instances held by local variables of the
function being executed.  Every impl that is alive is referenced and its counter is exact, so nothing leaks,
nothing referenced was freed, and `rc = 1` means that there is one owner. -/
structure Rel (w : World σ β) (L : List V) (es : List (Core σ)) : Prop where
  len : w.vars.length = L.length
  hold : ∀ (i : Nat) c v, w.vars[i]? = some c → L[i]? = some v → Holds okS okB w c v
  live : ∀ a, 0 < refs (w.vars ++ es) a → ∃ b, w.block? a = some b
  cnt : ∀ a b, w.block? a = some b → 0 < b.base ∧ 0 < refs (w.vars ++ es) a ∧ b.rc + 1 = b.base + refs (w.vars ++ es) a

variable {okS okB}

@[simp] theorem is_sso (a : Nat) (s : σ) : (Core.sso s).is a = false := rfl
@[simp] theorem is_dyn (a b : Nat) : (Core.dyn b : Core σ).is a = (a == b) := rfl

theorem refs_append (x y : List (Core σ)) (a : Nat) : refs (x ++ y) a = refs x a + refs y a := List.countP_append
theorem refs_cons (c : Core σ) (y : List (Core σ)) (a : Nat) : refs (c :: y) a = refs y a + if c.is a then 1 else 0 :=
  List.countP_cons ..
theorem refs_nil (a : Nat) : refs ([] : List (Core σ)) a = 0 := rfl

theorem refs_set (l : List (Core σ)) (i : Nat) (c c' : Core σ) (h : l[i]? = some c) (a : Nat) :
    refs (l.set i c') a + (if c.is a then 1 else 0) = refs l a + if c'.is a then 1 else 0 := by
  induction l generalizing i with
  | nil => simp at h
  | cons x t ih =>
    cases i with
    | zero =>
      simp only [List.getElem?_cons_zero, Option.some.injEq] at h
      subst h
      rw [List.set_cons_zero, refs_cons, refs_cons]; omega
    | succ i =>
      simp only [List.getElem?_cons_succ] at h
      rw [List.set_cons_succ, refs_cons, refs_cons]
      have := ih i h
      omega

theorem refs_mem (l : List (Core σ)) (i : Nat) (a : Nat) (h : l[i]? = some (.dyn a)) : 0 < refs l a := by
  apply List.countP_pos_iff.2
  exact ⟨_, List.mem_of_getElem? h, by simp⟩

theorem block_set (w : World σ β) (a a' : Nat) (b : Block β) (h : ∃ b0, w.block? a = some b0) :
    ({ w with heap := w.heap.set a b } : World σ β).block? a' =
      if a' = a then (if b.alive then some b else none) else w.block? a' := by
  obtain ⟨b0, h⟩ := h
  have hlt : a < w.heap.length := by
    unfold World.block? at h
    split at h
    · rename_i x hx; exact (List.getElem?_eq_some_iff.1 hx).1
    · simp at h
  unfold World.block?
  simp only
  by_cases hc : a' = a
  · subst hc
    simp only [List.getElem?_set, hlt, if_true]
  · have : ¬ a = a' := fun h => hc h.symm
    simp only [List.getElem?_set, this, hc, if_false]

theorem block_alloc (w : World σ β) (base : Nat) (v : β) (a' : Nat) :
    (w.alloc base v).2.block? a' = if a' = w.heap.length then some ⟨base, base, true, v⟩ else w.block? a' := by
  unfold World.block? World.alloc
  simp only
  by_cases hc : a' = w.heap.length
  · subst hc
    simp
  · simp only [hc, if_false]
    rw [List.getElem?_append]
    by_cases hlt : a' < w.heap.length
    · simp only [hlt, if_true]
    · simp only [hlt, if_false]
      have h1 : w.heap[a']? = none := List.getElem?_eq_none (by omega)
      have h2 : [(⟨base, base, true, v⟩ : Block β)][a' - w.heap.length]? = none :=
        List.getElem?_eq_none (by simp only [List.length_cons, List.length_nil]; omega)
      rw [h1, h2]

theorem block_some_lt (w : World σ β) (a : Nat) (b : Block β) (h : w.block? a = some b) :
    a < w.heap.length ∧ w.heap[a]? = some b ∧ b.alive = true := by
  unfold World.block? at h
  split at h
  · rename_i x hx
    by_cases hx2 : x.alive = true
    · rw [if_pos hx2] at h
      simp only [Option.some.injEq] at h
      subst h
      exact ⟨(List.getElem?_eq_some_iff.1 hx).1, hx, hx2⟩
    · rw [if_neg hx2] at h; exact absurd h (by simp)
  · simp at h

/-- Holding is kept as long as the impl's content is. -/
theorem holds_mono {w w' : World σ β} {c : Core σ} {v : V} (h : Holds okS okB w c v)
    (hb : ∀ a b, c = .dyn a → w.block? a = some b → ∃ b', w'.block? a = some b' ∧ b'.val = b.val) :
    Holds okS okB w' c v := by
  cases c with
  | sso s => exact h
  | dyn a =>
    obtain ⟨b, h1, h2⟩ := h
    obtain ⟨b', h3, h4⟩ := hb a b rfl h1
    exact ⟨b', h3, by rw [h4]; exact h2⟩

theorem rel_retain {w : World σ β} {L : List V} {es : List (Core σ)} (h : Rel okS okB w L es) (c : Core σ)
    (hc : ∀ a, c = .dyn a → ∃ b, w.block? a = some b) :
    ∃ w', w.retain c = some w' ∧ Rel okS okB w' L (c :: es) ∧ w'.vars = w.vars ∧
      (∀ a b, w.block? a = some b → ∃ b', w'.block? a = some b' ∧ b'.val = b.val) := by
  cases c with
  | sso s =>
    refine ⟨w, rfl, ⟨h.len, h.hold, ?_, ?_⟩, rfl, fun a b hb => ⟨b, hb, rfl⟩⟩
    · intro a; rw [refs_append, refs_cons]; have := h.live a; rw [refs_append] at this; simpa using this
    · intro a b; rw [refs_append, refs_cons]; have := h.cnt a b; rw [refs_append] at this; simpa using this
  | dyn a =>
    obtain ⟨b, hb⟩ := hc a rfl
    obtain ⟨_, _, hal⟩ := block_some_lt w a b hb
    have key := fun a' => block_set w a a' { b with rc := b.rc + 1 } ⟨b, hb⟩
    simp only [hal, if_true] at key
    have hval : ∀ a' b', w.block? a' = some b' → ∃ b'', ({ w with heap := w.heap.set a { b with rc := b.rc + 1, alive := true } } : World σ β).block? a' = some b'' ∧ b''.val = b'.val := by
      intro a' b' hb'
      rw [key a']
      by_cases hc : a' = a
      · subst hc; rw [hb] at hb'; simp only [Option.some.injEq] at hb'; subst hb'
        exact ⟨_, if_pos rfl, rfl⟩
      · rw [if_neg hc]; exact ⟨b', hb', rfl⟩
    refine ⟨{ w with heap := w.heap.set a { b with rc := b.rc + 1, alive := true } }, ?_, ⟨h.len, ?_, ?_, ?_⟩, rfl, hval⟩
    · simp only [World.retain, hb, Option.bind_eq_bind, Option.bind_some, hal]; rfl
    · intro i c v hi hv
      exact holds_mono (h.hold i c v hi hv) (fun a' b' _ hb' => hval a' b' hb')
    · intro a' hr
      rw [key a']
      by_cases hc : a' = a
      · exact ⟨_, if_pos hc⟩
      · rw [if_neg hc]
        apply h.live
        rw [refs_append, refs_cons] at hr
        rw [refs_append]
        have : (Core.dyn a : Core σ).is a' = false := by simpa using hc
        rw [this] at hr; simpa using hr
    · intro a' b' hb'
      rw [key a'] at hb'
      rw [refs_append, refs_cons]
      by_cases hc : a' = a
      · subst hc
        rw [if_pos rfl] at hb'
        simp only [Option.some.injEq] at hb'
        subst hb'
        have := h.cnt a' b hb
        rw [refs_append] at this
        simp only [is_dyn, beq_self_eq_true, if_true]
        omega
      · rw [if_neg hc] at hb'
        have := h.cnt a' b' hb'
        rw [refs_append] at this
        have hf : (Core.dyn a : Core σ).is a' = false := by simpa using hc
        rw [hf]; simpa using this

theorem rel_release {w : World σ β} {L : List V} {es : List (Core σ)} (c : Core σ) (h : Rel okS okB w L (c :: es)) :
    ∃ w', w.release c = some w' ∧ Rel okS okB w' L es ∧ w'.vars = w.vars ∧
      (∀ a', c ≠ .dyn a' → w'.block? a' = w.block? a') := by
  cases c with
  | sso s =>
    refine ⟨w, rfl, ⟨h.len, h.hold, ?_, ?_⟩, rfl, fun _ _ => rfl⟩
    · intro a; have := h.live a; rw [refs_append, refs_cons] at this; rw [refs_append]; simpa using this
    · intro a b; have := h.cnt a b; rw [refs_append, refs_cons] at this; rw [refs_append]; simpa using this
  | dyn a =>
    have hpos : 0 < refs (w.vars ++ Core.dyn a :: es) a := by
      rw [refs_append, refs_cons]; simp only [is_dyn, beq_self_eq_true, if_true]; omega
    obtain ⟨b, hb⟩ := h.live a hpos
    obtain ⟨_, _, hal⟩ := block_some_lt w a b hb
    obtain ⟨hbase, _, hrc⟩ := h.cnt a b hb
    rw [refs_append, refs_cons] at hrc
    simp only [is_dyn, beq_self_eq_true, if_true] at hrc
    have other : ∀ a', ¬ a' = a → refs (w.vars ++ Core.dyn a :: es) a' = refs (w.vars ++ es) a' := by
      intro a' hc
      rw [refs_append, refs_append, refs_cons]
      have : (Core.dyn a : Core σ).is a' = false := by simpa using hc
      rw [this]; simp
    by_cases heq : b.rc = b.base
    · have key := fun a' => block_set w a a' { b with rc := b.rc - 1, alive := false } ⟨b, hb⟩
      simp only [Bool.false_eq_true, if_false] at key
      have hz : refs (w.vars ++ es) a = 0 := by rw [refs_append]; omega
      refine ⟨{ w with heap := w.heap.set a { b with rc := b.rc - 1, alive := false } }, ?_, ⟨h.len, ?_, ?_, ?_⟩, rfl,
        fun a' hne => by rw [key a', if_neg (fun hc => hne (by rw [hc]))]⟩
      · simp only [World.release, hb, Option.bind_eq_bind, Option.bind_some, heq, if_true]; rfl
      · intro i c v hi hv
        apply holds_mono (h.hold i c v hi hv)
        intro a' b' hca hb'
        have hne : ¬ a' = a := by
          intro hc
          subst hc; subst hca
          have := refs_mem w.vars i a' hi
          rw [refs_append] at hz; omega
        exact ⟨b', by rw [key a', if_neg hne]; exact hb', rfl⟩
      · intro a' hr
        have hne : ¬ a' = a := fun hc => by subst hc; simp only at hr; omega
        obtain ⟨b', hb'⟩ := h.live a' (by rw [other a' hne]; exact hr)
        exact ⟨b', by rw [key a', if_neg hne]; exact hb'⟩
      · intro a' b' hb'
        rw [key a'] at hb'
        by_cases hc : a' = a
        · rw [if_pos hc] at hb'; exact absurd hb' (by simp)
        · rw [if_neg hc] at hb'
          have := h.cnt a' b' hb'
          rw [other a' hc] at this
          exact this
    · have key := fun a' => block_set w a a' { b with rc := b.rc - 1 } ⟨b, hb⟩
      simp only [hal, if_true] at key
      have hval : ∀ a' b', w.block? a' = some b' → ∃ b'', ({ w with heap := w.heap.set a { b with rc := b.rc - 1, alive := true } } : World σ β).block? a' = some b'' ∧ b''.val = b'.val := by
        intro a' b' hb'
        rw [key a']
        by_cases hc : a' = a
        · subst hc; rw [hb] at hb'; simp only [Option.some.injEq] at hb'; subst hb'
          exact ⟨_, if_pos rfl, rfl⟩
        · rw [if_neg hc]; exact ⟨b', hb', rfl⟩
      refine ⟨{ w with heap := w.heap.set a { b with rc := b.rc - 1, alive := true } }, ?_, ⟨h.len, ?_, ?_, ?_⟩, rfl,
        fun a' hne => by rw [key a', if_neg (fun hc => hne (by rw [hc]))]⟩
      · simp only [World.release, hb, Option.bind_eq_bind, Option.bind_some, heq, if_false, hal]; rfl
      · intro i c v hi hv
        exact holds_mono (h.hold i c v hi hv) (fun a' b' _ hb' => hval a' b' hb')
      · intro a' hr
        rw [key a']
        by_cases hc : a' = a
        · exact ⟨_, if_pos hc⟩
        · rw [if_neg hc]
          exact h.live a' (by rw [other a' hc]; exact hr)
      · intro a' b' hb'
        rw [key a'] at hb'
        by_cases hc : a' = a
        · subst hc
          rw [if_pos rfl] at hb'
          simp only [Option.some.injEq] at hb'
          subst hb'
          simp only
          rw [refs_append]
          omega
        · rw [if_neg hc] at hb'
          have := h.cnt a' b' hb'
          rw [other a' hc] at this
          exact this

theorem rel_alloc {w : World σ β} {L : List V} {es : List (Core σ)} (h : Rel okS okB w L es) (base : Nat) (v : β)
    (hb : 0 < base) :
    Rel okS okB (w.alloc base v).2 L ((w.alloc base v).1 :: es) ∧
      (w.alloc base v).2.block? w.heap.length = some ⟨base, base, true, v⟩ ∧
      (∀ a b, w.block? a = some b → (w.alloc base v).2.block? a = some b) := by
  have key := block_alloc w base v
  have hnone : w.block? w.heap.length = none := by
    unfold World.block?; rw [List.getElem?_eq_none (Nat.le_refl _)]
  have hkeep : ∀ a b, w.block? a = some b → (w.alloc base v).2.block? a = some b := by
    intro a b h1
    have := (block_some_lt w a b h1).1
    rw [key a, if_neg (by omega)]; exact h1
  have hz : refs (w.vars ++ es) w.heap.length = 0 := by
    by_cases hp : 0 < refs (w.vars ++ es) w.heap.length
    · obtain ⟨b, hx⟩ := h.live _ hp
      rw [hnone] at hx; exact absurd hx (by simp)
    · omega
  refine ⟨⟨h.len, ?_, ?_, ?_⟩, by rw [key]; exact if_pos rfl, hkeep⟩
  · intro i c x hi hx
    exact holds_mono (h.hold i c x hi hx) (fun a b _ hab => ⟨b, hkeep a b hab, rfl⟩)
  · intro a hr
    rw [key a]
    by_cases hc : a = w.heap.length
    · exact ⟨_, if_pos hc⟩
    · rw [if_neg hc]
      apply h.live
      simp only [World.alloc] at hr
      rw [refs_append, refs_cons] at hr
      have : (Core.dyn w.heap.length : Core σ).is a = false := by simpa using hc
      rw [this] at hr
      rw [refs_append]; simpa using hr
  · intro a b hab
    rw [key a] at hab
    simp only [World.alloc]
    rw [refs_append, refs_cons]
    rw [refs_append] at hz
    by_cases hc : a = w.heap.length
    · subst hc
      rw [if_pos rfl] at hab
      simp only [Option.some.injEq] at hab
      subst hab
      simp only [is_dyn, beq_self_eq_true, if_true]
      omega
    · rw [if_neg hc] at hab
      have := h.cnt a b hab
      rw [refs_append] at this
      have hf : (Core.dyn w.heap.length : Core σ).is a = false := by simpa using hc
      rw [hf]; simpa using this

/-- Exchanging a variable with a local instance. -/
theorem rel_swap {w : World σ β} {L : List V} {es : List (Core σ)} (c c' : Core σ) (h : Rel okS okB w L (c' :: es))
    (i : Nat) (hi : w.vars[i]? = some c) (v : V) (hv : Holds okS okB w c' v) :
    Rel okS okB (w.setVar i c') (L.set i v) (c :: es) := by
  have hb : ∀ a, (w.setVar i c').block? a = w.block? a := fun a => rfl
  have hr : ∀ a, refs ((w.setVar i c').vars ++ c :: es) a = refs (w.vars ++ c' :: es) a := by
    intro a
    have := refs_set w.vars i c c' hi a
    simp only [World.setVar]
    rw [refs_append, refs_cons, refs_append, refs_cons]
    omega
  have hlt : i < w.vars.length := (List.getElem?_eq_some_iff.1 hi).1
  refine ⟨by simp only [World.setVar, List.length_set]; exact h.len, ?_, ?_, ?_⟩
  · intro j d x hj hx
    by_cases hij : i = j
    · subst hij
      have e1 : (w.setVar i c').vars[i]? = some c' := by simp only [World.setVar]; rw [List.getElem?_set_self hlt]
      rw [e1] at hj
      simp only [Option.some.injEq] at hj
      subst hj
      rw [List.getElem?_set_self (by rw [← h.len]; exact hlt)] at hx
      simp only [Option.some.injEq] at hx
      subst hx
      exact holds_mono hv (fun a b _ hab => ⟨b, hab, rfl⟩)
    · have e1 : (w.setVar i c').vars[j]? = w.vars[j]? := by simp only [World.setVar]; rw [List.getElem?_set_ne hij]
      rw [e1] at hj
      rw [List.getElem?_set_ne hij] at hx
      exact holds_mono (h.hold j d x hj hx) (fun a b _ hab => ⟨b, hab, rfl⟩)
  · intro a ha
    rw [hr] at ha
    exact h.live a ha
  · intro a b hab
    rw [hr]
    exact h.cnt a b hab

/-- `replace_instance` with a locally held instance. -/
theorem rel_replace {w : World σ β} {L : List V} {es : List (Core σ)} (c' : Core σ) (h : Rel okS okB w L (c' :: es))
    (i : Nat) (hi : i < L.length) (v : V) (hv : Holds okS okB w c' v) :
    ∃ w', w.replace i c' = some w' ∧ Rel okS okB w' (L.set i v) es ∧ w'.vars = w.vars.set i c' ∧
      (∀ a', w.vars[i]? ≠ some (.dyn a') → w'.block? a' = w.block? a') := by
  have hlt : i < w.vars.length := by rw [h.len]; exact hi
  have hvar : w.vars[i]? = some w.vars[i] := List.getElem?_eq_getElem hlt
  obtain ⟨w', h1, h2, h3, h4⟩ := rel_release _ (rel_swap w.vars[i] c' h i hvar v hv)
  refine ⟨w', by simp only [World.replace, hvar, Option.bind_eq_bind, Option.bind_some]; exact h1, h2, h3, ?_⟩
  intro a' hne
  exact h4 a' (fun hc => hne (by rw [hvar, hc]))

/-- Replacing an instance by a freshly allocated impl. -/
theorem rel_replace_new {w : World σ β} {L : List V} {es : List (Core σ)} (h : Rel okS okB w L es) (base : Nat) (b : β)
    (hbase : 0 < base) (i : Nat) (hi : i < L.length) (v : V) (hv : okB b v) :
    ∃ w', (w.alloc base b).2.replace i (w.alloc base b).1 = some w' ∧ Rel okS okB w' (L.set i v) es ∧
      w'.vars = w.vars.set i (.dyn w.heap.length) ∧ w'.block? w.heap.length = some ⟨base, base, true, b⟩ := by
  obtain ⟨h1, h2, _⟩ := rel_alloc h base b hbase
  obtain ⟨w', h3, h4, h5, h6⟩ := rel_replace _ h1 i hi v ⟨_, h2, hv⟩
  refine ⟨w', h3, h4, h5, ?_⟩
  rw [h6, h2]
  intro hc
  have hc' : w.vars[i]? = some (.dyn w.heap.length) := hc
  have hp := refs_mem w.vars i _ hc'
  obtain ⟨b0, hb0⟩ := h.live w.heap.length (by rw [refs_append]; omega)
  have := (block_some_lt w _ b0 hb0).1
  omega

theorem rel_sso {w : World σ β} {L : List V} {es : List (Core σ)} (s : σ) :
    Rel okS okB w L (.sso s :: es) ↔ Rel okS okB w L es := by
  have e : ∀ a, refs (w.vars ++ Core.sso s :: es) a = refs (w.vars ++ es) a := by
    intro a; rw [refs_append, refs_append, refs_cons]; simp
  constructor
  · intro h
    exact ⟨h.len, h.hold, fun a ha => h.live a (by rw [e]; exact ha), fun a b hb => by rw [← e]; exact h.cnt a b hb⟩
  · intro h
    exact ⟨h.len, h.hold, fun a ha => h.live a (by rw [← e]; exact ha), fun a b hb => by rw [e]; exact h.cnt a b hb⟩

/-- Replacing an instance by an in-place one. -/
theorem rel_replace_sso {w : World σ β} {L : List V} {es : List (Core σ)} (h : Rel okS okB w L es) (s : σ)
    (i : Nat) (hi : i < L.length) (v : V) (hv : okS s v) :
    ∃ w', w.replace i (.sso s) = some w' ∧ Rel okS okB w' (L.set i v) es ∧ w'.vars = w.vars.set i (.sso s) := by
  obtain ⟨w', h1, h2, h3, _⟩ := rel_replace _ ((rel_sso s).2 h) i hi v hv
  exact ⟨w', h1, h2, h3⟩

/-- Changing an in-place instance. -/
theorem rel_set_sso {w : World σ β} {L : List V} {es : List (Core σ)} (h : Rel okS okB w L es) (s s' : σ)
    (i : Nat) (hi : w.vars[i]? = some (.sso s)) (v : V) (hv : okS s' v) :
    Rel okS okB (w.setVar i (.sso s')) (L.set i v) es :=
  (rel_sso s).1 (rel_swap _ _ ((rel_sso s').2 h) i hi v hv)

/-- Changing the impl of an instance that is its only owner. -/
theorem rel_mutate {w : World σ β} {L : List V} {es : List (Core σ)} (h : Rel okS okB w L es) (i a : Nat)
    (hi : w.vars[i]? = some (.dyn a)) (b : Block β) (hb : w.block? a = some b) (hrc : b.rc = 1) (x : β) (v : V)
    (hv : okB x v) : Rel okS okB (w.setVal a x) (L.set i v) es ∧ (w.setVal a x).vars = w.vars ∧
      (w.setVal a x).block? a = some { b with val := x } := by
  obtain ⟨hlt, hget, hal⟩ := block_some_lt w a b hb
  obtain ⟨c1, c2, c3⟩ := h.cnt a b hb
  have hone : refs (w.vars ++ es) a = 1 := by omega
  have hvar := refs_mem w.vars i a hi
  rw [refs_append] at hone
  have hset : w.setVal a x = { w with heap := w.heap.set a { b with val := x } } := by
    unfold World.setVal; rw [hget]
  have key := fun a' => block_set w a a' { b with val := x } ⟨b, hb⟩
  simp only [hal, if_true] at key
  have hself : (w.setVal a x).block? a = some { b with val := x } := by
    rw [hset]; have := key a; rw [if_pos rfl] at this
    simp only [hal]; exact this
  have hother : ∀ a', ¬ a' = a → (w.setVal a x).block? a' = w.block? a' := by
    intro a' hc
    rw [hset]; have := key a'; rw [if_neg hc] at this
    simp only [hal]; exact this
  have hvars : (w.setVal a x).vars = w.vars := by rw [hset]
  have hilt : i < w.vars.length := (List.getElem?_eq_some_iff.1 hi).1
  refine ⟨⟨by rw [hvars, List.length_set]; exact h.len, ?_, ?_, ?_⟩, hvars, hself⟩
  · intro j d u hj hu
    rw [hvars] at hj
    by_cases hij : i = j
    · subst hij
      rw [hi] at hj
      simp only [Option.some.injEq] at hj
      subst hj
      rw [List.getElem?_set_self (by rw [← h.len]; exact hilt)] at hu
      simp only [Option.some.injEq] at hu
      subst hu
      exact ⟨_, hself, hv⟩
    · rw [List.getElem?_set_ne hij] at hu
      apply holds_mono (h.hold j d u hj hu)
      intro a' b' hd hb'
      have hne : ¬ a' = a := by
        intro hc
        subst hc; subst hd
        -- two variables would refer to `a`
        have hcount := refs_set w.vars i (.dyn a') (.dyn (a' + 1)) hi a'
        have hj' : (w.vars.set i (.dyn (a' + 1)))[j]? = some (.dyn a') := by rw [List.getElem?_set_ne hij]; exact hj
        have := refs_mem _ j a' hj'
        have hn : (Core.dyn (a' + 1) : Core σ).is a' = false := by simp
        rw [hn] at hcount
        simp only [is_dyn, beq_self_eq_true, if_true, Bool.false_eq_true, if_false] at hcount
        omega
      exact ⟨b', by rw [hother a' hne]; exact hb', rfl⟩
  · intro a' ha'
    rw [hvars] at ha'
    by_cases hc : a' = a
    · subst hc; exact ⟨_, hself⟩
    · obtain ⟨b', hb'⟩ := h.live a' ha'
      exact ⟨b', by rw [hother a' hc]; exact hb'⟩
  · intro a' b' hb'
    rw [hvars]
    by_cases hc : a' = a
    · subst hc
      rw [hself] at hb'
      simp only [Option.some.injEq] at hb'
      subst hb'
      exact ⟨c1, c2, c3⟩
    · rw [hother a' hc] at hb'
      exact h.cnt a' b' hb'

theorem holds_live {w : World σ β} {c : Core σ} {v : V} (h : Holds okS okB w c v) :
    ∀ a, c = .dyn a → ∃ b, w.block? a = some b := by
  intro a hc; subst hc; obtain ⟨b, hb, _⟩ := h; exact ⟨b, hb⟩

/-- `assign_weak`: `retain_instance(other); replace_instance(self, other)`. -/
def World.assignWeak (w : World σ β) (i j : Nat) : Option (World σ β) := do
  let o ← w.vars[j]?
  let w ← w.retain o
  w.replace i o

theorem rel_assignWeak {w : World σ β} {L : List V} (h : Rel okS okB w L []) (i j : Nat) (hi : i < L.length) (v : V)
    (hj : L[j]? = some v) : ∃ w', w.assignWeak i j = some w' ∧ Rel okS okB w' (L.set i v) [] := by
  have hjl : j < w.vars.length := by rw [h.len]; exact (List.getElem?_eq_some_iff.1 hj).1
  have hvar : w.vars[j]? = some w.vars[j] := List.getElem?_eq_getElem hjl
  have hh := h.hold j _ v hvar hj
  obtain ⟨w1, h1, h2, h3, h4⟩ := rel_retain h w.vars[j] (holds_live hh)
  obtain ⟨w2, h5, h6, _⟩ := rel_replace _ h2 i hi v (holds_mono hh (fun a b _ hab => h4 a b hab))
  exact ⟨w2, by simp only [World.assignWeak, hvar, Option.bind_eq_bind, Option.bind_some, h1]; exact h5, h6⟩

/-- `assign_move`: `tmp = *other; init_static(other); replace_instance(self, &tmp)`. -/
def World.assignMove (w : World σ β) (i j : Nat) (s0 : σ) : Option (World σ β) := do
  let tmp ← w.vars[j]?
  (w.setVar j (.sso s0)).replace i tmp

theorem rel_assignMove {w : World σ β} {L : List V} (h : Rel okS okB w L []) (i j : Nat) (hi : i < L.length) (v : V)
    (hj : L[j]? = some v) (s0 : σ) (v0 : V) (h0 : okS s0 v0) :
    ∃ w', w.assignMove i j s0 = some w' ∧ Rel okS okB w' ((L.set j v0).set i v) [] := by
  have hjl : j < w.vars.length := by rw [h.len]; exact (List.getElem?_eq_some_iff.1 hj).1
  have hvar : w.vars[j]? = some w.vars[j] := List.getElem?_eq_getElem hjl
  have hh := h.hold j _ v hvar hj
  have h1 := rel_swap w.vars[j] (.sso s0) ((rel_sso s0).2 h) j hvar v0 h0
  obtain ⟨w2, h5, h6, _⟩ := rel_replace _ h1 i (by rw [List.length_set]; exact hi) v (holds_mono hh (fun a b _ hab => ⟨b, hab, rfl⟩))
  exact ⟨w2, by simp only [World.assignMove, hvar, Option.bind_eq_bind, Option.bind_some]; exact h5, h6⟩

end Blend2D.Cow
