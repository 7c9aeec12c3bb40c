import Verif.Deflate.Head

/-!
# Runs of the decoder
-/

namespace Blend2D.Deflate
open Spec

variable {c : Cfg}

theorem inv_refill (hI : Inv c) (hpc : c.pc = .main ∨ c.pc = .safe) : Inv c.refill := by
  obtain ⟨h1, h2, h3⟩ := refill_len hI.len
  refine ⟨h1, hI.room, hI.static, ?_⟩
  have hs := hI.stage
  have hidx := refill_idx c
  rw [Stage] at hs ⊢
  rw [show c.refill.st = c.st from rfl]
  cases hst : c.st <;> simp only [hst] at hs ⊢
  case huffmanBlock =>
    refine ⟨hs.1, ?_⟩
    rcases hpc with h | h
    · exact Or.inl h
    · exact Or.inr (Or.inl h)
  case copyStored => exact ⟨hs.1, by rw [h3]; exact hs.2.1, hs.2.2⟩
  case zlibHeader => exact hs
  case blockHeader => exact hs
  case storedHeader => exact ⟨hs.1, by rw [h3]; exact hs.2⟩
  case staticHeader => exact hs
  case dynamicHeader => exact hs
  case precodeLens =>
    obtain ⟨g1, g2, g3, g4, g5, g6⟩ := hs
    refine ⟨g1, g2, by rw [hidx]; exact g3, g4, g5, ?_⟩
    rcases g6 with h | ⟨⟨i, h⟩, _⟩
    · exact Or.inl h
    · rw [h] at hpc; rcases hpc with h | h <;> cases h
  case codeLens =>
    obtain ⟨g1, g2, g3, g4, g5, g6⟩ := hs
    exact ⟨g1, g2, by rw [hidx]; exact g3, g4, by rw [hidx]; exact g5, g6⟩

/-- The state of the decoder determines where it can be. -/
theorem pc_state (hI : Inv c) :
    match c.pc with
    | .main => True
    | .precode _ => c.st = .precodeLens
    | .codes _ => c.st = .codeLens
    | .opt _ => c.st = .huffmanBlock
    | .safe => c.st = .huffmanBlock := by
  have hs := hI.stage
  rw [Stage] at hs
  cases hst : c.st <;> cases hp : c.pc <;> simp [hst, hp] at hs ⊢

theorem step_ok (hI : Inv c) : StepOk c (step c) := by
  have hp := pc_state hI
  rw [step]
  cases hpc : c.pc with
  | main => exact good_refill hI.len (mainBody_ok (inv_refill hI (Or.inl hpc)) hpc (refill_len hI.len).2.1)
  | precode i => rw [hpc] at hp; exact precodeStep_ok hI hp hpc
  | codes i => rw [hpc] at hp; exact codesStep_ok hI hp hpc
  | opt e => rw [hpc] at hp; exact optStep_ok hI hp hpc
  | safe =>
    rw [hpc] at hp
    exact good_refill hI.len (safeBody_ok (inv_refill hI (Or.inr hpc)) hp hpc (refill_len hI.len).2.1)

/-! ## One chunk -/

/-- What a chunk leads to. -/
def RunOk (c : Cfg) : Ret × Cfg → Prop
  | (.success, c') => ∀ fut r, r ≠ .refused → Sim c fut r → r = .ok c'.out
  | (.truncated, c') => (∀ chunk, Inv { c' with src := chunk, pc := .main }) ∧
      ∀ fut r, r ≠ .refused → Sim c fut r → Sim { c' with src := [], pc := .main } fut r ∧ (fut = [] → r = .truncated)
  | (.invalid, _) => ∀ fut r, r ≠ .refused → Sim c fut r → ∀ o, r ≠ .ok o
  | (.fast, _) => 176 ≤ c.src.length
  | _ => True

theorem runOk_mono {c1 : Cfg} {x : Ret × Cfg} (hsrc : c1.src.length ≤ c.src.length)
    (hs : ∀ fut r, r ≠ .refused → Sim c fut r → Sim c1 fut r) (h : RunOk c1 x) : RunOk c x := by
  match x with
  | (.success, c') => exact fun fut r hr hsim => h fut r hr (hs fut r hr hsim)
  | (.truncated, c') => exact ⟨h.1, fun fut r hr hsim => h.2 fut r hr (hs fut r hr hsim)⟩
  | (.invalid, c') => exact fun fut r hr hsim => h fut r hr (hs fut r hr hsim)
  | (.fast, c') => exact Nat.le_trans h hsrc
  | (.running, c') => trivial
  | (.outOfMemory, c') => trivial

theorem run_ok {grow : Cfg → Option Nat} (hgrow : ∀ c cap, grow c = some cap → required c ≤ cap) :
    ∀ (n : Nat) (c : Cfg), Inv c → ∃ x, run grow n c = some x ∧ RunOk c x
  | 0, c, _ => ⟨(.running, c), rfl, trivial⟩
  | n + 1, c, hI => by
    have h := step_ok hI
    rw [run]
    match hs : step c with
    | none => rw [hs] at h; exact h.elim
    | some (.next c') =>
      rw [hs] at h
      obtain ⟨h1, h2, h3⟩ := h
      obtain ⟨x, e, hx⟩ := run_ok hgrow n c' h1
      exact ⟨x, e, runOk_mono h2.1 h3 hx⟩
    | some (.output c') =>
      rw [hs] at h
      obtain ⟨h1, h2⟩ := h
      simp only []
      cases hg : grow c' with
      | none => exact ⟨_, rfl, trivial⟩
      | some cap =>
        obtain ⟨g1, g2⟩ := h1 cap (hgrow c' cap hg)
        obtain ⟨x, e, hx⟩ := run_ok hgrow n { c' with cap := cap } g1
        exact ⟨x, e, runOk_mono g2.1 h2 hx⟩
    | some (.success c') => rw [hs] at h; exact ⟨_, rfl, h⟩
    | some (.truncated c') =>
      rw [hs] at h
      obtain ⟨h1, h2, h3⟩ := h
      refine ⟨_, rfl, h2, fun fut r hr hsim => ?_⟩
      have := h3 fut r hr hsim
      exact ⟨by rw [← h1]; exact this.1, this.2⟩
    | some (.invalid c') => rw [hs] at h; exact ⟨_, rfl, h⟩
    | some (.fast c') => rw [hs] at h; exact ⟨_, rfl, h⟩

/-! ## Termination -/

theorem rank_le (c : Cfg) : c.rank ≤ 25 := by
  have : c.stageRank ≤ 9 := by
    simp only [Cfg.stageRank]
    split <;> omega
  simp only [Cfg.rank]
  split <;> omega

def Cfg.measure (c : Cfg) (K : Nat) : Nat := (c.total * 26 + c.rank) * (K + 1) + c.src.length

theorem less_measure {c' c : Cfg} {K : Nat} (hK : c.src.length ≤ K) (h : Less c' c) : c'.measure K < c.measure K := by
  obtain ⟨h1, h2⟩ := h
  have r1 := rank_le c
  have r2 := rank_le c'
  simp only [Cfg.measure]
  have step : ∀ a b : Nat, a < b → a * (K + 1) + c'.src.length < b * (K + 1) + c.src.length := by
    intro a b hab
    have := Nat.mul_le_mul_right (K + 1) (show a + 1 ≤ b from hab)
    rw [Nat.add_mul, Nat.one_mul] at this
    omega
  rcases h2 with h | ⟨h, h3 | ⟨h3, h4⟩⟩
  · exact step _ _ (by omega)
  · exact step _ _ (by omega)
  · rw [h, h3]; omega

theorem run_stops {grow : Cfg → Option Nat} (hgrow : ∀ c cap, grow c = some cap → required c ≤ cap) {K : Nat} :
    ∀ (n : Nat) (c : Cfg), Inv c → c.src.length ≤ K → c.measure K < n → ∀ c', run grow n c ≠ some (.running, c')
  | 0, c, _, _, h => by omega
  | n + 1, c, hI, hK, hn => by
    have h := step_ok hI
    intro cf
    rw [run]
    match hs : step c with
    | none => simp
    | some (.next c') =>
      rw [hs] at h
      obtain ⟨h1, h2, h3⟩ := h
      have := less_measure hK h2
      exact run_stops hgrow n c' h1 (Nat.le_trans h2.1 hK) (by omega) cf
    | some (.output c') =>
      rw [hs] at h
      obtain ⟨h1, h2⟩ := h
      simp only []
      cases hg : grow c' with
      | none => simp
      | some cap =>
        obtain ⟨g1, g2⟩ := h1 cap (hgrow c' cap hg)
        have := less_measure hK g2
        exact run_stops hgrow n { c' with cap := cap } g1 (Nat.le_trans g2.1 hK) (by omega) cf
    | some (.success c') => simp
    | some (.truncated c') => simp
    | some (.invalid c') => simp
    | some (.fast c') => simp

/-! ## All chunks -/

theorem sim_chunk {x fut : List UInt8} {r : Result (List UInt8)} (h : Sim { c with src := [], pc := .main } (x ++ fut) r) :
    Sim { c with src := x, pc := .main } fut r := h

/-- What a sequence of chunks leads to. -/
def AllOk (r : Result (List UInt8)) : Ret × Cfg → Prop
  | (.success, c') => r = .ok c'.out
  | (.truncated, _) => r = .truncated
  | (.invalid, _) => ∀ o, r ≠ .ok o
  | _ => True

theorem decodeAll_ok {grow : Cfg → Option Nat} (hgrow : ∀ c cap, grow c = some cap → required c ≤ cap) (n : Nat) :
    ∀ (chunks : List (List UInt8)) (c : Cfg), (∀ chunk, Inv { c with src := chunk, pc := .main }) →
      ∃ x, decodeAll grow n c chunks = some x ∧
        ((∀ l ∈ chunks, l.length < 176) → x.1 ≠ .fast) ∧
        ∀ r, r ≠ .refused → Sim { c with src := [], pc := .main } chunks.flatten r → (chunks = [] → r = .truncated) → AllOk r x
  | [], c, hI => ⟨_, rfl, fun _ => by simp, fun r _ _ h => h rfl⟩
  | x :: xs, c, hI => by
    obtain ⟨y, he, hy⟩ := run_ok hgrow n _ (hI x)
    rw [decodeAll, decode, he]
    have hsim : ∀ r, Sim { c with src := [], pc := .main } (x :: xs).flatten r → Sim { c with src := x, pc := .main } xs.flatten r := by
      intro r h
      rw [List.flatten_cons] at h
      exact h
    match y with
    | (.truncated, c') =>
      simp only []
      obtain ⟨h1, h2⟩ := hy
      obtain ⟨z, hz, hf, ha⟩ := decodeAll_ok hgrow n xs c' h1
      refine ⟨z, hz, fun h => hf fun l hl => h l (List.mem_cons_of_mem _ hl), fun r hr hs _ => ?_⟩
      obtain ⟨g1, g2⟩ := h2 xs.flatten r hr (hsim r hs)
      exact ha r hr g1 fun he => g2 (by rw [he]; rfl)
    | (.success, c') => exact ⟨_, rfl, fun _ => by simp, fun r hr hs _ => hy _ r hr (hsim r hs)⟩
    | (.invalid, c') => exact ⟨_, rfl, fun _ => by simp, fun r hr hs _ => hy _ r hr (hsim r hs)⟩
    | (.fast, c') =>
      refine ⟨_, rfl, fun h => ?_, fun _ _ _ _ => trivial⟩
      have h1 := h x List.mem_cons_self
      have h2 : 176 ≤ x.length := hy
      omega
    | (.running, c') => exact ⟨_, rfl, fun _ => by simp, fun _ _ _ _ => trivial⟩
    | (.outOfMemory, c') => exact ⟨_, rfl, fun _ => by simp, fun _ _ _ _ => trivial⟩

theorem decodeAll_stops {grow : Cfg → Option Nat} (hgrow : ∀ c cap, grow c = some cap → required c ≤ cap) {n K : Nat}
    (hn : ((63 + 8 * K) * 26 + 25) * (K + 1) + K < n) : ∀ (chunks : List (List UInt8)) (c : Cfg),
      (∀ chunk, Inv { c with src := chunk, pc := .main }) → (∀ l ∈ chunks, l.length ≤ K) →
      ∀ c', decodeAll grow n c chunks ≠ some (.running, c')
  | [], c, _, _, c' => by simp [decodeAll]
  | x :: xs, c, hI, hK, c' => by
    have hx := hK x List.mem_cons_self
    obtain ⟨y, he, hy⟩ := run_ok hgrow n _ (hI x)
    have hstop := run_stops hgrow (K := K) n _ (hI x) hx (by
      have r1 := rank_le { c with src := x, pc := .main }
      have r2 : c.bits.len ≤ 63 := (hI x).len
      have r3 : ({ c with src := x, pc := .main } : Cfg).total = c.bits.len + 8 * x.length := rfl
      have : (({ c with src := x, pc := .main } : Cfg).total * 26 + ({ c with src := x, pc := .main } : Cfg).rank) * (K + 1) ≤
          ((63 + 8 * K) * 26 + 25) * (K + 1) := Nat.mul_le_mul_right _ (by omega)
      have r4 : ({ c with src := x, pc := .main } : Cfg).src.length = x.length := rfl
      simp only [Cfg.measure] at *
      omega)
    rw [he] at hstop
    rw [decodeAll, decode, he]
    match y with
    | (.truncated, d) => exact decodeAll_stops hgrow hn xs d hy.1 (fun l hl => hK l (List.mem_cons_of_mem _ hl)) c'
    | (.success, d) => simp
    | (.invalid, d) => simp
    | (.fast, d) => simp
    | (.running, d) => exact absurd rfl (hstop d)
    | (.outOfMemory, d) => simp

/-- The decoder runs out of memory only if the output cannot grow. -/
theorem run_memory {grow : Cfg → Option Nat} (h : ∀ c, grow c ≠ none) : ∀ (n : Nat) (c c' : Cfg), run grow n c ≠ some (.outOfMemory, c')
  | 0, c, c' => by simp [run]
  | n + 1, c, c' => by
    rw [run]
    split
    · simp
    · exact run_memory h n _ c'
    · split
      · rename_i hg; exact absurd hg (h _)
      · exact run_memory h n _ c'
    all_goals simp

theorem decodeAll_memory {grow : Cfg → Option Nat} (h : ∀ c, grow c ≠ none) (n : Nat) : ∀ (chunks : List (List UInt8)) (c c' : Cfg),
    decodeAll grow n c chunks ≠ some (.outOfMemory, c')
  | [], c, c' => by simp [decodeAll]
  | x :: xs, c, c' => by
    rw [decodeAll]
    split
    · exact decodeAll_memory h n xs _ c'
    · exact run_memory h n _ c'

/-! ## Beginning -/

theorem inv_init (zlib : Bool) {d : Cfg} (h : d.out.length ≤ d.cap) (chunk : List UInt8) :
    Inv { init zlib d with src := chunk, pc := .main } := by
  refine ⟨Nat.zero_le _, h, fun h => (nomatch h), ?_⟩
  cases zlib <;> exact ⟨rfl, rfl⟩

def formatOf (zlib : Bool) : Format := if zlib then .zlib else .raw

theorem stream_empty (bytes : List UInt8) : (BitBuf.mk 0 0).stream bytes = Stream.of bytes := by
  simp [BitBuf.stream, Stream.of]

theorem sim_init (zlib : Bool) (d : Cfg) (input : List UInt8) :
    Sim { init zlib d with src := [], pc := .main } input (inflate plain (formatOf zlib) input d.out) := by
  have ha : (BitBuf.mk 0 0).Agree input := by
    intro i hi
    simp at hi
  have hc : (BitBuf.mk 0 0).Clean := Nat.zero_lt_one
  cases zlib with
  | true =>
    refine ⟨ha, hc, ?_⟩
    show inflate plain .zlib input d.out = (zlibHeader ((BitBuf.mk 0 0).stream input)).bind fun s => blocks plain false s d.out
    rw [stream_empty]
    rfl
  | false =>
    refine ⟨ha, false, fun _ => hc, ?_⟩
    show inflate plain .raw input d.out = blocks plain false ((BitBuf.mk 0 0).stream input) d.out
    rw [stream_empty]
    rfl

theorem inflate_nil (allow : Bool → Kind → Bool) (f : Format) (out : List UInt8) : inflate allow f [] out = .truncated := by
  cases f with
  | raw =>
    rw [inflate, blocks_eq, bits_short (by simp [Stream.of])]
    rfl
  | zlib =>
    rw [inflate, zlibHeader]
    simp only [bind_eq]
    rw [bits_short (by simp [Stream.of])]
    rfl

/-! ## What `plain` excludes makes no other difference -/

theorem block_allow (seen seen' : Bool) (ty : Nat) (S : Stream) (out : List UInt8) :
    block plain seen ty S out = .refused ∨ block plain seen ty S out = block (fun _ _ => true) seen' ty S out := by
  match ty with
  | 0 =>
    simp only [block]
    split
    · exact Or.inr rfl
    · exact Or.inl rfl
  | 1 =>
    simp only [block]
    split
    · exact Or.inr rfl
    · exact Or.inl rfl
  | 2 =>
    simp only [block, bind_eq]
    cases dynamicCodes S with
    | ok p =>
      obtain ⟨a, b, s⟩ := p
      simp only [bind_ok]
      split
      · exact Or.inr rfl
      · exact Or.inl rfl
    | _ => exact Or.inr rfl
  | n + 3 => exact Or.inr rfl

theorem blocks_allow : ∀ (n : Nat) (S : Stream), S.len ≤ n → ∀ (seen seen' : Bool) (out : List UInt8),
    blocks plain seen S out ≠ .refused → blocks plain seen S out = blocks (fun _ _ => true) seen' S out := by
  intro n
  induction n with
  | zero =>
    intro S hS seen seen' out _
    rw [blocks_eq, blocks_eq, bits_short (by omega)]
    rfl
  | succ n ih =>
    intro S hS seen seen' out h
    rw [blocks_eq] at h ⊢
    rw [blocks_eq (fun _ _ => true)]
    by_cases h1 : 1 ≤ S.len
    · rw [bits_skip h1, bind_ok] at h ⊢
      simp only [bind_ok] at h ⊢
      by_cases h2 : 2 ≤ (S.skip 1).len
      · rw [bits_skip h2, bind_ok] at h ⊢
        simp only [bind_ok] at h ⊢
        have hl : ((S.skip 1).skip 2).len < S.len := by rw [skip_len, skip_len] at *; omega
        rcases block_allow seen seen' ((S.skip 1).val % 2 ^ 2) ((S.skip 1).skip 2) out with hb | hb
        · rw [hb] at h; exact absurd rfl h
        · rw [hb] at h
          rw [hb]
          cases hx : block (fun _ _ => true) seen' ((S.skip 1).val % 2 ^ 2) ((S.skip 1).skip 2) out with
          | ok p =>
            rw [hx, bind_ok] at h
            rw [bind_ok, bind_ok]
            have hle := block_le (o := p.1) (S1 := p.2) hx
            by_cases hf : S.val % 2 ^ 1 = 1
            · rw [if_pos hf, if_pos hf]
            · rw [if_neg hf] at h ⊢
              rw [if_neg hf]
              exact ih p.2 (by omega) _ _ _ h
          | _ => rfl
      · rw [bits_short (by omega)]
        rfl
    · rw [bits_short (by omega)]
      rfl

theorem inflate_allow {f : Format} {input out : List UInt8} (h : inflate plain f input out ≠ .refused) :
    inflate plain f input out = inflate (fun _ _ => true) f input out := by
  cases f with
  | raw => exact blocks_allow _ _ (Nat.le_refl _) _ _ _ h
  | zlib =>
    simp only [inflate, bind_eq] at h ⊢
    cases hz : zlibHeader (Stream.of input) with
    | ok s => rw [hz, bind_ok] at h; exact blocks_allow _ _ (Nat.le_refl _) _ _ _ h
    | _ => rfl

end Blend2D.Deflate
