import Verif.HashMap.Model

/-!
# The hash map stores exactly what was put in (C27)
-/

namespace Blend2D.HashMap

open List (Perm)

/-! ## The reciprocals divide exactly -/

/-- Checks that `N * rcp >> shift` is `N / prime` at the two critical points. -/
def entryOk (e : UInt32 × UInt32 × Nat) : Bool :=
  let d := e.1.toNat
  let m := e.2.1.toNat
  let s := e.2.2
  let q := (2 ^ 32 - 1) / d
  let r := (2 ^ 32 - 1) % d
  0 < d && 32 ≤ s && s < 64 && 2 ^ s ≤ m * d && r * m + q * (m * d - 2 ^ s) < 2 ^ s
    && (d - 1) * m + (q - 1) * (m * d - 2 ^ s) < 2 ^ s && 1 ≤ q

theorem primes_ok : ∀ e ∈ primes, entryOk e = true := by
  have : primes.all entryOk = true := by decide +kernel
  exact List.all_eq_true.1 this

theorem div_exact {d m s q r N n : Nat} (hd : 0 < d) (hN : N = q * d + r) (hq1 : 1 ≤ q)
    (hge : 2 ^ s ≤ m * d) (h1 : r * m + q * (m * d - 2 ^ s) < 2 ^ s)
    (h2 : (d - 1) * m + (q - 1) * (m * d - 2 ^ s) < 2 ^ s) (hn : n ≤ N) :
    n * m / 2 ^ s = n / d := by
  obtain ⟨e, he⟩ : ∃ e, m * d - 2 ^ s = e := ⟨_, rfl⟩
  obtain ⟨P, hP⟩ : ∃ P, 2 ^ s = P := ⟨_, rfl⟩
  rw [he] at h1 h2
  rw [hP] at hge he h1 h2 ⊢
  have hPpos : 0 < P := by rw [← hP]; exact Nat.two_pow_pos s
  obtain ⟨a, ha⟩ : ∃ a, n / d = a := ⟨_, rfl⟩
  obtain ⟨b, hb⟩ : ∃ b, n % d = b := ⟨_, rfl⟩
  have hbd : b < d := by rw [← hb]; exact Nat.mod_lt _ hd
  have hn' : n = a * d + b := by rw [← ha, ← hb, Nat.mul_comm]; exact (Nat.div_add_mod n d).symm
  have hmd : m * d = P + e := by omega
  have hval : n * m = b * m + a * e + a * P := by
    rw [hn', Nat.add_mul]
    have : a * d * m = a * P + a * e := by
      rw [Nat.mul_assoc, Nat.mul_comm d m, hmd, Nat.mul_add]
    omega
  have hlt : b * m + a * e < P := by
    by_cases haq : a < q
    · have x1 : b * m ≤ (d - 1) * m := Nat.mul_le_mul_right m (by omega)
      have x2 : a * e ≤ (q - 1) * e := Nat.mul_le_mul_right e (by omega)
      omega
    · have haq' : a = q := by
        apply Nat.le_antisymm _ (by omega)
        apply Nat.le_of_not_lt
        intro hlt
        have : (q + 1) * d ≤ a * d := Nat.mul_le_mul_right d hlt
        have : (q + 1) * d = q * d + d := by rw [Nat.add_mul, Nat.one_mul]
        have hr : r < d := by
          apply Nat.lt_of_not_le
          intro hr
          have := Nat.mul_le_mul_right m hr
          rw [Nat.mul_comm d m] at this
          have : q * e ≥ 0 := Nat.zero_le _
          omega
        omega
      subst haq'
      have : b * m ≤ r * m := Nat.mul_le_mul_right m (by omega)
      omega
  rw [ha, hval, Nat.add_mul_div_right _ _ hPpos, Nat.div_eq_of_lt hlt, Nat.zero_add]

theorem entry_div {e : UInt32 × UInt32 × Nat} (h : entryOk e = true) (hash : UInt32) :
    hash.toNat * e.2.1.toNat / 2 ^ e.2.2 = hash.toNat / e.1.toNat ∧ 0 < e.1.toNat ∧ 32 ≤ e.2.2
      ∧ e.2.2 < 64 := by
  simp only [entryOk, Bool.and_eq_true, decide_eq_true_eq] at h
  obtain ⟨⟨⟨⟨⟨⟨h1, h2⟩, h3⟩, h4⟩, h5⟩, h6⟩, h7⟩ := h
  refine ⟨?_, h1, h2, h3⟩
  have hN : 2 ^ 32 - 1 = (2 ^ 32 - 1) / e.1.toNat * e.1.toNat + (2 ^ 32 - 1) % e.1.toNat := by
    have := Nat.div_add_mod (2 ^ 32 - 1) e.1.toNat
    rw [Nat.mul_comm] at this
    exact this.symm
  exact div_exact (N := 2 ^ 32 - 1) h1 hN h7 h4 h5 h6 (by have := hash.toNat_lt; omega)

theorem mul_no_wrap (a b : UInt32) : (a.toUInt64 * b.toUInt64).toNat = a.toNat * b.toNat := by
  rw [UInt64.toNat_mul, UInt32.toNat_toUInt64, UInt32.toNat_toUInt64]
  apply Nat.mod_eq_of_lt
  have h1 := a.toNat_lt
  have h2 := b.toNat_lt
  calc a.toNat * b.toNat ≤ (2 ^ 32 - 1) * (2 ^ 32 - 1) := Nat.mul_le_mul (by omega) (by omega)
    _ < 2 ^ 64 := by decide

theorem sub_div_mul (hash count divided : UInt32) (hd : divided.toNat = hash.toNat / count.toNat) :
    (hash - divided * count).toNat = hash.toNat % count.toNat := by
  have h1 := hash.toNat_lt
  have h2 : (divided * count).toNat = hash.toNat / count.toNat * count.toNat := by
    rw [UInt32.toNat_mul, hd]
    apply Nat.mod_eq_of_lt
    exact Nat.lt_of_le_of_lt (Nat.div_mul_le_self _ _) h1
  have h3 := Nat.div_mul_le_self hash.toNat count.toNat
  rw [UInt32.toNat_sub_of_le _ _ (by rw [UInt32.le_iff_toNat_le, h2]; exact h3), h2]
  have := Nat.div_add_mod hash.toNat count.toNat
  rw [Nat.mul_comm] at this
  omega

/-- **C27 (bucket selection).** For every table entry and every 32-bit hash code, both
variants of the multiply-and-shift computation give the remainder of the division by
the prime. -/
theorem C27_reciprocal_mod_exact (i : Nat) (p rcp : UInt32) (shift : Nat)
    (he : primes[i]? = some (p, rcp, shift)) (hash : UInt32) :
    calcMod64 rcp shift p hash = hash % p ∧ calcMod32 rcp shift p hash = hash % p := by
  obtain ⟨hdiv, hpos, h32, h64⟩ := entry_div (primes_ok _ (List.mem_of_getElem? he)) hash
  simp only at hdiv hpos h32 h64
  have hlt := hash.toNat_lt
  have hq : hash.toNat / p.toNat < 2 ^ 32 := Nat.lt_of_le_of_lt (Nat.div_le_self _ _) hlt
  constructor
  · apply UInt32.toNat_inj.1
    rw [UInt32.toNat_mod]
    apply sub_div_mul
    rw [UInt64.toNat_toUInt32, UInt64.toNat_shiftRight, mul_no_wrap]
    have : shift.toUInt64.toNat % 64 = shift := by
      rw [Nat.toUInt64, UInt64.toNat_ofNat']; omega
    rw [this, Nat.shiftRight_eq_div_pow, hdiv]
    exact Nat.mod_eq_of_lt hq
  · apply UInt32.toNat_inj.1
    rw [UInt32.toNat_mod]
    apply sub_div_mul
    rw [UInt32.toNat_shiftRight, UInt64.toNat_toUInt32, UInt64.toNat_shiftRight, mul_no_wrap]
    have : (shift - 32).toUInt32.toNat % 32 = shift - 32 := by
      rw [Nat.toUInt32, UInt32.toNat_ofNat']; omega
    rw [this]
    have h2 : (32 : UInt64).toNat % 64 = 32 := by decide
    rw [h2, Nat.shiftRight_eq_div_pow, Nat.shiftRight_eq_div_pow]
    have hmul : hash.toNat * rcp.toNat < 2 ^ 32 * 2 ^ 32 := by
      have := rcp.toNat_lt
      calc hash.toNat * rcp.toNat ≤ (2 ^ 32 - 1) * (2 ^ 32 - 1) := Nat.mul_le_mul (by omega) (by omega)
        _ < 2 ^ 32 * 2 ^ 32 := by decide
    rw [Nat.mod_eq_of_lt ((Nat.div_lt_iff_lt_mul (by decide)).2 hmul), Nat.div_div_eq_div_mul, ← Nat.pow_add]
    have : 32 + (shift - 32) = shift := by omega
    rw [this, hdiv]

/-! ## Buckets -/

variable {ν : Type}

/-- Every node is in the bucket of its hash code. -/
def Placed (hash : ν → UInt32) (count : UInt32) (data : List (List ν)) : Prop :=
  ∀ i chain, data[i]? = some chain → ∀ n ∈ chain, (hash n % count).toNat = i

theorem set_flatten_perm : ∀ (data : List (List ν)) (i : Nat) (chain chain' extra : List ν),
    data[i]? = some chain → Perm chain' (extra ++ chain) →
    Perm (data.set i chain').flatten (extra ++ data.flatten) := by
  intro data
  induction data with
  | nil => intro i chain chain' extra h; simp at h
  | cons c data ih =>
    intro i chain chain' extra h hp
    cases i with
    | zero =>
      simp at h; subst h
      simp only [List.set_cons_zero, List.flatten_cons, ← List.append_assoc]
      exact hp.append_right _
    | succ i =>
      simp only [List.getElem?_cons_succ] at h
      simp only [List.set_cons_succ, List.flatten_cons]
      refine ((ih i chain chain' extra h hp).append_left c).trans ?_
      rw [← List.append_assoc, ← List.append_assoc]
      exact (List.perm_append_comm).append_right _

theorem push_spec {data : List (List ν)} {i : UInt32} (hi : i.toNat < data.length) (node : ν) :
    ∃ data', push data i node = some data' ∧ data'.length = data.length ∧
      Perm data'.flatten (node :: data.flatten) ∧
      (∀ k chain, data'[k]? = some chain → ∀ n ∈ chain,
        (k = i.toNat ∧ n = node) ∨ ∃ chain₀, data[k]? = some chain₀ ∧ n ∈ chain₀) := by
  have hc := List.getElem?_eq_getElem hi
  refine ⟨data.set i.toNat (node :: data[i.toNat]), by simp [push, hc], by simp, ?_, ?_⟩
  · exact set_flatten_perm data i.toNat _ _ [node] hc (Perm.refl _)
  · intro k chain hk n hn
    rw [List.getElem?_set] at hk
    by_cases hik : i.toNat = k
    · subst hik
      rw [if_pos rfl, if_pos hi] at hk
      injection hk with hk; subst hk
      rcases List.mem_cons.1 hn with h | h
      · exact .inl ⟨rfl, h⟩
      · exact .inr ⟨_, hc, h⟩
    · rw [if_neg hik] at hk
      exact .inr ⟨_, hk, hn⟩

theorem mod_lt' (h p : UInt32) (hp : 0 < p.toNat) : (h % p).toNat < p.toNat := by
  rw [UInt32.toNat_mod]; exact Nat.mod_lt _ hp

theorem moveChain_spec (hash : ν → UInt32) (md : UInt32 → UInt32) (count : UInt32)
    (hmd : ∀ h, md h = h % count) (hpos : 0 < count.toNat) :
    ∀ (chain : List ν) (data : List (List ν)), data.length = count.toNat → Placed hash count data →
    ∃ data', moveChain hash md chain data = some data' ∧ data'.length = count.toNat ∧
      Placed hash count data' ∧ Perm data'.flatten (chain ++ data.flatten) := by
  intro chain
  induction chain with
  | nil => intro data h1 h2; exact ⟨data, rfl, h1, h2, Perm.refl _⟩
  | cons node chain ih =>
    intro data h1 h2
    obtain ⟨d1, e1, e2, e3, e4⟩ := push_spec (data := data) (i := hash node % count)
      (by rw [h1]; exact mod_lt' _ _ hpos) node
    have hpl : Placed hash count d1 := by
      intro k c hk n hn
      rcases e4 k c hk n hn with ⟨h, rfl⟩ | ⟨c0, h, h'⟩
      · exact h.symm
      · exact h2 k c0 h n h'
    obtain ⟨d2, f1, f2, f3, f4⟩ := ih d1 (by rw [e2, h1]) hpl
    refine ⟨d2, by simp only [moveChain, hmd, e1, f1], f2, f3, ?_⟩
    refine f4.trans ?_
    refine (e3.append_left chain).trans ?_
    rw [List.cons_append]
    exact List.perm_middle

theorem moveAll_spec (hash : ν → UInt32) (md : UInt32 → UInt32) (count : UInt32)
    (hmd : ∀ h, md h = h % count) (hpos : 0 < count.toNat) :
    ∀ (old data : List (List ν)), data.length = count.toNat → Placed hash count data →
    ∃ data', moveAll hash md old data = some data' ∧ data'.length = count.toNat ∧
      Placed hash count data' ∧ Perm data'.flatten (old.flatten ++ data.flatten) := by
  intro old
  induction old with
  | nil => intro data h1 h2; exact ⟨data, rfl, h1, h2, Perm.refl _⟩
  | cons chain old ih =>
    intro data h1 h2
    obtain ⟨d1, e1, e2, e3, e4⟩ := moveChain_spec hash md count hmd hpos chain data h1 h2
    obtain ⟨d2, f1, f2, f3, f4⟩ := ih d1 e2 e3
    refine ⟨d2, by simp only [moveAll, e1, f1], f2, f3, ?_⟩
    refine f4.trans ?_
    refine (e4.append_left _).trans ?_
    rw [List.flatten_cons, ← List.append_assoc]
    exact (List.perm_append_comm).append_right _

/-- The representation invariant: the map represents the given collection of nodes. -/
structure Inv (hash : ν → UInt32) (m : Map ν) (c : List ν) : Prop where
  entry : primes[m.primeIndex]? = some (m.bucketCount, m.rcp, m.shift)
  len : m.data.length = m.bucketCount.toNat
  placed : Placed hash m.bucketCount m.data
  perm : Perm m.data.flatten c
  size : m.size = c.length

theorem Inv.pos {hash : ν → UInt32} {m : Map ν} {c : List ν} (h : Inv hash m c) :
    0 < m.bucketCount.toNat := by
  have := (entry_div (primes_ok _ (List.mem_of_getElem? h.entry)) 0).2.1
  exact this

theorem Inv.calcMod {hash : ν → UInt32} {m : Map ν} {c : List ν} (h : Inv hash m c) (x : UInt32) :
    m.calcMod x = x % m.bucketCount := (C27_reciprocal_mod_exact _ _ _ _ h.entry x).1

theorem inv_empty (hash : ν → UInt32) : Inv hash (Map.empty : Map ν) [] where
  entry := by rfl
  len := by rfl
  placed := by
    intro i chain h n hn
    match i, h with
    | 0, h => simp [Map.empty] at h; subst h; simp at hn
    | 1, h => simp [Map.empty] at h; subst h; simp at hn
    | i + 2, h => simp [Map.empty] at h
  perm := by simp [Map.empty]
  size := rfl

theorem rehash_spec {hash : ν → UInt32} {m : Map ν} {c : List ν} (h : Inv hash m c) {pi : Nat}
    (hpi : pi < primes.length) (ok : Bool) :
    ∃ m', m.rehash hash pi ok = some m' ∧ Inv hash m' c := by
  obtain ⟨e, he⟩ : ∃ e, primes[pi]? = some e := ⟨_, List.getElem?_eq_getElem hpi⟩
  obtain ⟨count, rcp, shift⟩ := e
  unfold Map.rehash
  rw [he]
  cases ok with
  | false => exact ⟨m, rfl, h⟩
  | true =>
    have hpos : 0 < count.toNat := (entry_div (primes_ok _ (List.mem_of_getElem? he)) 0).2.1
    obtain ⟨d, e1, e2, e3, e4⟩ := moveAll_spec hash (calcMod64 rcp shift count) count
      (fun x => (C27_reciprocal_mod_exact _ _ _ _ he x).1) hpos m.data (List.replicate count.toNat [])
      (by simp)
      (by
        intro i chain hi n hn
        rw [List.getElem?_replicate] at hi
        split at hi
        · injection hi with hi; subst hi; simp at hn
        · simp at hi)
    simp only [e1]
    refine ⟨_, rfl, he, e2, e3, ?_, h.size⟩
    refine e4.trans ?_
    have : (List.replicate count.toNat ([] : List ν)).flatten = [] := by simp
    rw [this, List.append_nil]
    exact h.perm

theorem insert_spec {hash : ν → UInt32} {m : Map ν} {c : List ν} (h : Inv hash m c) (node : ν)
    (ok : Bool) : ∃ m', m.insert hash node ok = some m' ∧ Inv hash m' (node :: c) := by
  obtain ⟨d1, e1, e2, e3, e4⟩ := push_spec (data := m.data) (i := hash node % m.bucketCount)
      (by rw [h.len]; exact mod_lt' _ _ h.pos) node
  have h1 : Inv hash { m with data := d1, size := m.size + 1 } (node :: c) :=
    { entry := h.entry, len := e2.trans h.len,
      placed := by
        intro k c hk n hn
        rcases e4 k c hk n hn with ⟨h', rfl⟩ | ⟨c0, h', h''⟩
        · exact h'.symm
        · exact h.placed k c0 h' n h''
      perm := e3.trans (h.perm.cons node)
      size := by simp [h.size] }
  unfold Map.insert
  rw [h.calcMod, e1]
  simp only
  split
  · split
    · exact rehash_spec h1 (by have : primes.length = 129 := by decide +kernel
                               omega) ok
    · exact ⟨_, rfl, h1⟩
  · exact ⟨_, rfl, h1⟩

theorem unlink_spec [DecidableEq ν] (node : ν) (l : List ν) :
    unlink node l = if node ∈ l then some (l.erase node) else none := by
  induction l with
  | nil => rfl
  | cons p ps ih =>
    simp only [unlink, List.mem_cons, List.erase_cons]
    by_cases hp : p = node
    · simp [hp]
    · have hp' : ¬ node = p := fun h => hp h.symm
      simp only [hp, hp', if_false, false_or, ih, beq_iff_eq]
      split <;> simp

theorem remove_spec [DecidableEq ν] {hash : ν → UInt32} {m : Map ν} {c : List ν} (h : Inv hash m c)
    (node : ν) :
    ∃ m', m.remove hash node = some (decide (node ∈ c), m') ∧ Inv hash m' (c.erase node) := by
  have hi : (hash node % m.bucketCount).toNat < m.data.length := by
    rw [h.len]; exact mod_lt' _ _ h.pos
  have hc := List.getElem?_eq_getElem hi
  have hmem : node ∈ c ↔ node ∈ m.data[(hash node % m.bucketCount).toNat] := by
    rw [← h.perm.mem_iff, List.mem_flatten]
    constructor
    · rintro ⟨chain, h1, h2⟩
      obtain ⟨k, hk⟩ := List.mem_iff_getElem?.1 h1
      have := h.placed k chain hk node h2
      subst this
      rw [hc] at hk; injection hk with hk; rw [hk]; exact h2
    · intro hn; exact ⟨_, List.getElem_mem hi, hn⟩
  unfold Map.remove
  simp only [h.calcMod, hc, unlink_spec, ← hmem]
  by_cases hn : node ∈ c
  · simp only [hn, if_true, decide_true]
    refine ⟨_, rfl, h.entry, by simp [h.len], ?_, ?_, ?_⟩
    · intro k chain hk n hn'
      simp only [List.getElem?_set] at hk
      by_cases hik : (hash node % m.bucketCount).toNat = k
      · rw [if_pos hik, if_pos hi] at hk
        injection hk with hk; subst hk
        exact h.placed k _ (by rw [← hik]; exact hc) n (List.mem_of_mem_erase hn')
      · rw [if_neg hik] at hk
        exact h.placed k _ hk n hn'
    · have hp1 : Perm (node :: (m.data[(hash node % m.bucketCount).toNat]).erase node)
          (m.data[(hash node % m.bucketCount).toNat]) := (List.perm_cons_erase (hmem.1 hn)).symm
      have hp2 := set_flatten_perm (m.data.set (hash node % m.bucketCount).toNat
          ((m.data[(hash node % m.bucketCount).toNat]).erase node)) (hash node % m.bucketCount).toNat
          ((m.data[(hash node % m.bucketCount).toNat]).erase node) _ [node]
          (by rw [List.getElem?_set, if_pos rfl, if_pos hi]) hp1.symm
      rw [List.set_set] at hp2
      have hself : m.data.set (hash node % m.bucketCount).toNat m.data[(hash node % m.bucketCount).toNat] = m.data := by
        apply List.set_getElem_self
      rw [hself] at hp2
      have := (hp2.symm.trans h.perm).trans (List.perm_cons_erase hn)
      exact (List.perm_cons node).1 this
    · show m.size - 1 = _
      rw [List.length_erase_of_mem hn, h.size]
  · simp only [hn, if_false, decide_false]
    refine ⟨m, rfl, ?_⟩
    rw [List.erase_of_not_mem hn]; exact h

/-! ## Specification and theorem -/

/-- The collection of nodes a history should leave in the map. -/
def contents [DecidableEq ν] : List ν → List (Op ν) → List ν
  | c, [] => c
  | c, .insert node _ :: ops => contents (node :: c) ops
  | c, .remove node :: ops => contents (c.erase node) ops

theorem run_spec [DecidableEq ν] (hash : ν → UInt32) :
    ∀ (ops : List (Op ν)) (m : Map ν) (c : List ν), Inv hash m c →
    ∃ m', run hash m ops = some m' ∧ Inv hash m' (contents c ops) := by
  intro ops
  induction ops with
  | nil => intro m c h; exact ⟨m, rfl, h⟩
  | cons op ops ih =>
    intro m c h
    cases op with
    | insert node ok =>
      obtain ⟨m1, e1, h1⟩ := insert_spec h node ok
      obtain ⟨m2, e2, h2⟩ := ih m1 _ h1
      exact ⟨m2, by simp [run, step, e1, e2], h2⟩
    | remove node =>
      obtain ⟨m1, e1, h1⟩ := remove_spec h node
      obtain ⟨m2, e2, h2⟩ := ih m1 _ h1
      exact ⟨m2, by simp [run, step, e1, e2], h2⟩

/-- **C27.** After every history of insertions and removals, with every pattern of
allocation failures and every hash function: no access was out of bounds; the size is
the number of stored nodes; `for_each` visits every stored node exactly once; `remove`
reports whether the node was stored; a lookup finds a stored node that matches the key
if and only if there is one with the key's hash code. -/
theorem C27_map_is_collection [DecidableEq ν] (hash : ν → UInt32) (ops : List (Op ν)) :
    ∃ m, run hash Map.empty ops = some m ∧
      m.size = (contents [] ops).length ∧
      Perm m.nodes (contents [] ops) ∧
      (∀ node, ∃ m', m.remove hash node = some (decide (node ∈ contents [] ops), m')) ∧
      (∀ hashCode isMatch, (∀ n, isMatch n = true → hash n = hashCode) →
        ∃ r, m.get hashCode isMatch = some r ∧
          (∀ n, r = some n → n ∈ contents [] ops ∧ isMatch n = true) ∧
          (r = none → ∀ n ∈ contents [] ops, isMatch n = false)) := by
  obtain ⟨m, e, h⟩ := run_spec hash ops Map.empty [] (inv_empty hash)
  refine ⟨m, e, h.size, h.perm, fun node => ?_, ?_⟩
  · obtain ⟨m', e', _⟩ := remove_spec h node
    exact ⟨m', e'⟩
  · intro hashCode isMatch hmatch
    have hi : (hashCode % m.bucketCount).toNat < m.data.length := by
      rw [h.len]; exact mod_lt' _ _ h.pos
    have hc := List.getElem?_eq_getElem hi
    refine ⟨(m.data[(hashCode % m.bucketCount).toNat]).find? isMatch,
      by simp only [Map.get, h.calcMod, hc], ?_, ?_⟩
    · intro n hn
      refine ⟨?_, List.find?_some hn⟩
      rw [← h.perm.mem_iff, List.mem_flatten]
      exact ⟨_, List.getElem_mem hi, List.mem_of_find?_eq_some hn⟩
    · intro hnone n hn
      rw [← h.perm.mem_iff, List.mem_flatten] at hn
      obtain ⟨chain, h1, h2⟩ := hn
      obtain ⟨k, hk⟩ := List.mem_iff_getElem?.1 h1
      have hpl := h.placed k chain hk n h2
      cases hm : isMatch n with
      | false => rfl
      | true =>
        rw [hmatch n hm] at hpl
        subst hpl
        rw [hc] at hk; injection hk with hk
        have := List.find?_eq_none.1 hnone n (by rw [hk]; exact h2)
        exact absurd hm this

/-- Non-vacuity: a history with a rehash, colliding hash codes and a removal. -/
example : ((run (fun n : Nat => (n * 11).toUInt32) Map.empty
    [.insert 1 true, .insert 2 true, .insert 3 false, .remove 2, .insert 4 true]).map fun m =>
      (m.size, m.bucketCount.toNat, m.nodes, m.get 33 (· == 3))) =
    some (3, 29, [3, 1, 4], some (some 3)) := by decide +kernel

end Blend2D.HashMap
