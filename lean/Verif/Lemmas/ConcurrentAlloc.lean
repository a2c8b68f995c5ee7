import Verif.Lemmas.Concurrent
import Verif.Spec.ConcurrentAlloc
/-
Interleaved runs of programs that allocate: the allocations a thread makes have other numbers than when it runs alone.
-/
namespace Simd

variable {α : Type}

/-- `M` has at `σ b` what `μ` has at `b`, for the bytes in `A` of the allocations that exist in `μ`. -/
structure Copy (A : Nat → Nat → Prop) (σ : Nat → Nat) (μ M : Mem) : Prop where
  lt : ∀ b, b < μ.nbuf → σ b < M.nbuf
  size : ∀ b, b < μ.nbuf → M.size (σ b) = μ.size b
  none : ∀ b, μ.nbuf ≤ b → μ.size b = 0
  cell : ∀ b i, b < μ.nbuf → A b i → M.cell (σ b) i = μ.cell b i

theorem Copy.read {A : Nat → Nat → Prop} {σ : Nat → Nat} {μ M : Mem} (h : Copy A σ μ M) {p : Ptr} {n : Nat} (hp : ∀ i, p.off ≤ i → i < p.off + n → A p.buf i)
    {bs : List Byte} (hr : μ.read p n = some bs) : M.read ⟨σ p.buf, p.off⟩ n = some bs := by
  by_cases hb : p.buf < μ.nbuf
  · rw [← hr]
    unfold Mem.read
    dsimp only
    rw [h.size _ hb, readFrom_ren n p.off fun i h1 h2 => h.cell _ _ hb (hp i h1 h2)]
  · unfold Mem.read at hr ⊢
    rw [h.none _ (by omega)] at hr
    split at hr
    · rename_i h0
      obtain rfl : n = 0 := by omega
      rw [if_pos (by dsimp only; omega)]
      exact hr
    · cases hr

/-- The step of a thread in its private memory `μ` and in the shared memory `M`. -/
structure StepLike (N : Nat) (W A : Nat → Nat → Prop) (Q : (Nat → Nat) → α → α → Prop) (σ : Nat → Nat) (y x : Prog α) (μ M : Mem)
    (σ' : Nat → Nat) (y' x' : Prog α) (μ' M' : Mem) : Prop where
  same : ∀ b, b < μ.nbuf → σ' b = σ b
  inj : Function.Injective σ'
  high : ∀ b, N ≤ b → N ≤ σ' b
  ren : ∀ ρ, Function.Injective ρ → (∀ b, b < μ'.nbuf → ρ b = σ' b) → Ren ρ (Q ρ) y' x'
  le : μ.nbuf ≤ μ'.nbuf
  new : ∀ b, μ.nbuf ≤ b → b < μ'.nbuf → M.nbuf ≤ σ' b
  copy : Copy A σ' μ' M'
  run : y'.run μ' = y.run μ
  left : y'.stepsLeft μ' < y.stepsLeft μ
  mle : M.nbuf ≤ M'.nbuf
  msize : ∀ b, b < M.nbuf → M'.size b = M.size b
  mcell : ∀ b i, b < M.nbuf → (∀ b₀, b₀ < μ.nbuf → σ b₀ = b → ¬ W b₀ i) → M'.cell b i = M.cell b i

/-- How the numbers of the allocations go on after an allocation. -/
def extend (σ : Nat → Nat) (n k : Nat) (b : Nat) : Nat := if b < n then σ b else k + (b - n)

theorem extend_inj {σ : Nat → Nat} {n k : Nat} (hi : Function.Injective σ) (hk : ∀ b, b < n → σ b < k) : Function.Injective (extend σ n k) := by
  intro a b h
  unfold extend at h
  split_ifs at h with h1 h2 h2
  · exact hi h
  · have := hk a h1; omega
  · have := hk b h2; omega
  · omega

unseal Ren in
theorem next_ren {N : Nat} {R W : Nat → Nat → Prop} {Q : (Nat → Nat) → α → α → Prop} {σ : Nat → Nat} {y x : Prog α} {μ M : Mem} (he : x.ended = false)
    (hren : ∀ ρ, Function.Injective ρ → (∀ b, b < μ.nbuf → ρ b = σ b) → Ren ρ (Q ρ) y x) (hi : Function.Injective σ) (hh : ∀ b, N ≤ b → N ≤ σ b)
    (hM : N ≤ M.nbuf)
    (hc : Copy (fun b i => N ≤ b ∨ R b i ∨ W b i) σ μ M) (ht : Inside (fun b i => N ≤ b ∨ R b i) (fun b i => N ≤ b ∨ W b i) (y.trace μ)) (hu : y.run μ ≠ .ub) :
    Inside (fun b i => N ≤ b ∨ R b i) (fun b i => N ≤ b ∨ W b i) ((y.next μ).1.trace (y.next μ).2) ∧
    ∃ σ', StepLike N (fun b i => N ≤ b ∨ W b i) (fun b i => N ≤ b ∨ R b i ∨ W b i) Q σ y x μ M σ' (y.next μ).1 (x.next M).1 (y.next μ).2 (x.next M).2 := by
  have h0 := hren σ hi fun _ _ => rfl
  cases y with
  | pure a => cases x <;> first | exact h0.elim | exact nomatch he
  | err => cases x <;> first | exact h0.elim | exact nomatch he
  | panic => cases x <;> first | exact h0.elim | exact nomatch he
  | ub => exact absurd rfl hu
  | load p n k =>
    cases x with
    | load p' n' k' =>
      obtain ⟨rfl, rfl, -⟩ := h0
      have hl : ∀ b i, Spec.In p n' b i → N ≤ b ∨ R b i := ht (.load p n') (by simp [Prog.trace])
      simp only [Prog.run] at hu
      simp only [Prog.trace] at ht
      cases h : μ.read p n' with
      | none => rw [h] at hu; exact absurd rfl hu
      | some bs =>
        rw [h] at ht
        have hr := hc.read (fun i h1 h2 => (hl _ _ ⟨rfl, h1, h2⟩).imp id .inl) h
        rw [show (Prog.load ⟨σ p.buf, p.off⟩ n' k').next M = (k' bs, M) by simp only [Prog.next, hr], show (Prog.load p n' k).next μ = (k bs, μ) by simp only [Prog.next, h]]
        exact ⟨ht.tail, σ, fun _ _ => rfl, hi, hh, fun ρ h1 h2 => (hren ρ h1 h2).2.2 bs, Nat.le_refl _, fun b h1 h2 => by dsimp only at h2; omega, hc, by simp only [Prog.run, h],
          by simp only [Prog.stepsLeft, h]; omega, Nat.le_refl _, fun _ _ => rfl, fun _ _ _ _ => rfl⟩
    | _ => first | exact h0.elim | exact nomatch he
  | store p bs k =>
    cases x with
    | store p' bs' k' =>
      obtain ⟨rfl, rfl, -⟩ := h0
      have hl : ∀ b i, Spec.In p bs'.length b i → N ≤ b ∨ W b i := ht (.store p bs'.length) (by simp [Prog.trace])
      simp only [Prog.run] at hu
      simp only [Prog.trace] at ht
      by_cases h : p.off + bs'.length ≤ μ.size p.buf
      · rw [if_pos h] at ht
        have h' : p.off + bs'.length ≤ M.size (σ p.buf) := by
          by_cases hb : p.buf < μ.nbuf
          · rw [hc.size _ hb]; exact h
          · rw [hc.none _ (by omega)] at h; omega
        rw [show (Prog.store ⟨σ p.buf, p.off⟩ bs' k').next M = (k', M.write ⟨σ p.buf, p.off⟩ bs') by simp only [Prog.next, if_pos h'],
          show (Prog.store p bs' k).next μ = (k, μ.write p bs') by simp only [Prog.next, if_pos h]]
        refine ⟨ht.tail, σ, fun _ _ => rfl, hi, hh, fun ρ h1 h2 => (hren ρ h1 h2).2.2, Nat.le_refl _, fun b h1 h2 => absurd h2 (Nat.not_lt.2 h1),
          ⟨hc.lt, hc.size, hc.none, fun b i hb ha => ?_⟩, by simp only [Prog.run, if_pos h],
          by simp only [Prog.stepsLeft]; omega, Nat.le_refl _, fun _ _ => rfl, fun b i hb hw => ?_⟩
        · simp only [Mem.write, hi.eq_iff]
          rw [hc.cell b i hb ha]
        · refine if_neg fun ⟨h1, h2, h3⟩ => ?_
          dsimp only at h1 h2 h3
          by_cases hb : p.buf < μ.nbuf
          · exact hw p.buf hb h1.symm (hl _ _ ⟨rfl, h2, h3⟩)
          · rw [hc.none _ (by omega)] at h; omega
      · rw [if_neg h] at hu; exact absurd rfl hu
    | _ => first | exact h0.elim | exact nomatch he
  | chk p k =>
    cases x with
    | chk p' k' =>
      obtain ⟨rfl, -⟩ := h0
      simp only [Prog.run] at hu
      simp only [Prog.trace] at ht
      by_cases h : p.off ≤ μ.size p.buf
      · rw [if_pos h] at ht
        have h' : p.off ≤ M.size (σ p.buf) := by
          by_cases hb : p.buf < μ.nbuf
          · rw [hc.size _ hb]; exact h
          · rw [hc.none _ (by omega)] at h; omega
        rw [show (Prog.chk ⟨σ p.buf, p.off⟩ k').next M = (k', M) by simp only [Prog.next, if_pos h'], show (Prog.chk p k).next μ = (k, μ) by simp only [Prog.next, if_pos h]]
        exact ⟨ht, σ, fun _ _ => rfl, hi, hh, fun ρ h1 h2 => (hren ρ h1 h2).2, Nat.le_refl _, fun b h1 h2 => absurd h2 (Nat.not_lt.2 h1), hc, by simp only [Prog.run, if_pos h],
          by simp only [Prog.stepsLeft]; omega, Nat.le_refl _, fun _ _ => rfl, fun _ _ _ _ => rfl⟩
      · rw [if_neg h] at hu; exact absurd rfl hu
    | _ => first | exact h0.elim | exact nomatch he
  | alloc n k =>
    cases x with
    | alloc n' k' =>
      obtain ⟨rfl, -⟩ := h0
      have e : extend σ μ.nbuf M.nbuf μ.nbuf = M.nbuf := by simp [extend]
      have e' : ∀ b, b < μ.nbuf → extend σ μ.nbuf M.nbuf b = σ b := fun b hb => if_pos hb
      have hnext : (Prog.alloc n' k').next M = (k' M.nbuf, M.alloc n') := rfl
      have hnext' : (Prog.alloc n' k).next μ = (k μ.nbuf, μ.alloc n') := rfl
      rw [hnext, hnext']
      refine ⟨ht, extend σ μ.nbuf M.nbuf, e', extend_inj hi hc.lt, fun b hb => ?_, fun ρ h1 h2 => ?_, Nat.le_succ _, fun b h1 h2 => ?_, ⟨?_, ?_, ?_, ?_⟩, rfl,
        by simp only [Prog.stepsLeft]; omega, Nat.le_succ _, fun b hb => if_neg (by omega), fun b i hb _ => if_neg (by omega)⟩
      · unfold extend; split
        · exact hh b hb
        · omega
      · have := (hren ρ h1 fun b hb => (h2 b (Nat.lt_succ_of_lt hb)).trans (e' b hb)).2 μ.nbuf
        rwa [h2 μ.nbuf (Nat.lt_succ_self _), e] at this
      · obtain rfl : b = μ.nbuf := by
          have : b < μ.nbuf + 1 := h2
          omega
        exact Nat.le_of_eq e.symm
      · intro b hb
        have : b < μ.nbuf + 1 := hb
        show _ < M.nbuf + 1
        by_cases h : b < μ.nbuf
        · rw [e' b h]; have := hc.lt b h; omega
        · obtain rfl : b = μ.nbuf := by omega
          omega
      · intro b hb
        have : b < μ.nbuf + 1 := hb
        show (if _ then _ else _) = if _ then _ else _
        by_cases h : b < μ.nbuf
        · have h3 := hc.lt b h
          rw [e' b h, if_neg (by omega), if_neg (by omega)]; exact hc.size b h
        · obtain rfl : b = μ.nbuf := by omega
          rw [if_pos e, if_pos rfl]
      · intro b hb
        have : μ.nbuf + 1 ≤ b := hb
        exact (if_neg (by omega)).trans (hc.none b (by omega))
      · intro b i hb ha
        have : b < μ.nbuf + 1 := hb
        show (if _ then _ else _) = if _ then _ else _
        by_cases h : b < μ.nbuf
        · have h3 := hc.lt b h
          rw [e' b h, if_neg (by omega), if_neg (by omega)]; exact hc.cell b i h ha
        · obtain rfl : b = μ.nbuf := by omega
          rw [if_pos e, if_pos rfl]
    | _ => first | exact h0.elim | exact nomatch he

section
variable {k : Nat} {τ : Fin k → Type} [∀ t, Spec.Moves (τ t)]

/-- `y t`, `μ t`: what thread `t` would have been doing by now, and the memory it would have had, if it had run alone; `σ t`: the numbers its allocations have instead. -/
structure ATh (x : (t : Fin k) → Prog (τ t)) (m : Mem) (R W : Fin k → Nat → Nat → Prop) (c : Threads k τ) (y : (t : Fin k) → Prog (τ t)) (μ : Fin k → Mem)
    (σ : Fin k → Nat → Nat) : Prop where
  low : ∀ t b, b < m.nbuf → σ t b = b
  inj : ∀ t, Function.Injective (σ t)
  high : ∀ t b, m.nbuf ≤ b → m.nbuf ≤ σ t b
  le : ∀ t, m.nbuf ≤ (μ t).nbuf
  mle : m.nbuf ≤ c.mem.nbuf
  apart : ∀ t u, t ≠ u → ∀ b b', m.nbuf ≤ b → b < (μ t).nbuf → m.nbuf ≤ b' → b' < (μ u).nbuf → σ t b ≠ σ u b'
  ren : ∀ t ρ, Function.Injective ρ → (∀ b, b < (μ t).nbuf → ρ b = σ t b) → Ren ρ (fun a a' => a' = Spec.Moves.move ρ a) (y t) (c.thread t)
  copy : ∀ t, Copy (fun b i => m.nbuf ≤ b ∨ R t b i ∨ W t b i) (σ t) (μ t) c.mem
  inside : ∀ t, Inside (fun b i => m.nbuf ≤ b ∨ R t b i) (fun b i => m.nbuf ≤ b ∨ W t b i) ((y t).trace (μ t))
  run : ∀ t, (y t).run (μ t) = (x t).run m
  size : ∀ b, b < m.nbuf → c.mem.size b = m.size b
  rest : ∀ b i, b < m.nbuf → (∀ t, ¬ W t b i) → c.mem.cell b i = m.cell b i

/-- Steps all threads still have to make. -/
def allLeft' (y : (t : Fin k) → Prog (τ t)) (μ : Fin k → Mem) : Nat := ∑ t, (y t).stepsLeft (μ t)

theorem ATh.step {x : (t : Fin k) → Prog (τ t)} {m : Mem} {R W : Fin k → Nat → Nat → Prop} {c c' : Threads k τ} {y : (t : Fin k) → Prog (τ t)} {μ : Fin k → Mem}
    {σ : Fin k → Nat → Nat} (hI : ATh x m R W c y μ σ) (hu : ∀ t, (x t).run m ≠ .ub) (hd : ∀ t u, t ≠ u → ∀ b i, b < m.nbuf → W t b i → ¬ (R u b i ∨ W u b i))
    (h : Threads.Step c c') : ∃ y' μ' σ', ATh x m R W c' y' μ' σ' ∧ allLeft' y' μ' < allLeft' y μ := by
  obtain ⟨t, he, h1, h2, h3⟩ := h
  have hut : (y t).run (μ t) ≠ .ub := by rw [hI.run t]; exact hu t
  obtain ⟨hin, σ₁, hS⟩ := next_ren he (hI.ren t) (hI.inj t) (hI.high t) hI.mle (hI.copy t) (hI.inside t) hut
  rw [← h1, ← h2] at hS
  generalize hy : ((y t).next (μ t)).1 = y₁ at hin hS
  generalize hμ : ((y t).next (μ t)).2 = μ₁ at hin hS
  have hy₁ : ∀ u, u ≠ t → (if e : u = t then e ▸ y₁ else y u) = y u := fun u e => dif_neg e
  have hy₂ : (if e : t = t then e ▸ y₁ else y t) = y₁ := dif_pos rfl
  -- what the step leaves of the other threads' memory
  have hkeep : ∀ u, u ≠ t → ∀ b i, b < (μ u).nbuf → (m.nbuf ≤ b ∨ R u b i ∨ W u b i) → c'.mem.cell (σ u b) i = c.mem.cell (σ u b) i := by
    intro u e b i hb ha
    refine hS.mcell _ i ((hI.copy u).lt b hb) fun b₀ hb₀ hσ hw => ?_
    by_cases hb' : b < m.nbuf
    · rw [hI.low u b hb'] at hσ
      by_cases hb₁ : m.nbuf ≤ b₀
      · have := hI.high t b₀ hb₁; omega
      · rw [hI.low t b₀ (by omega)] at hσ
        subst hσ
        exact hd t u (Ne.symm e) b₀ i hb' (hw.resolve_left (by omega)) (ha.resolve_left (by omega))
    · by_cases hb₁ : m.nbuf ≤ b₀
      · exact hI.apart t u (Ne.symm e) b₀ b hb₁ hb₀ (by omega) hb hσ
      · rw [hI.low t b₀ (by omega)] at hσ
        have := hI.high u b (by omega)
        omega
  refine ⟨fun u => if e : u = t then e ▸ y₁ else y u, fun u => if u = t then μ₁ else μ u, fun u => if u = t then σ₁ else σ u, ⟨?_, ?_, ?_, ?_, ?_, ?_, ?_, ?_, ?_, ?_, ?_, ?_⟩, ?_⟩
  · intro u b hb
    by_cases e : u = t
    · subst e; rw [if_pos rfl, hS.same b (Nat.lt_of_lt_of_le hb (hI.le u)), hI.low u b hb]
    · rw [if_neg e, hI.low u b hb]
  · intro u
    by_cases e : u = t
    · subst e; rw [if_pos rfl]; exact hS.inj
    · rw [if_neg e]; exact hI.inj u
  · intro u
    by_cases e : u = t
    · subst e; rw [if_pos rfl]; exact hS.high
    · rw [if_neg e]; exact hI.high u
  · intro u
    by_cases e : u = t
    · subst e; rw [if_pos rfl]; exact Nat.le_trans (hI.le u) hS.le
    · rw [if_neg e]; exact hI.le u
  · exact Nat.le_trans hI.mle hS.mle
  · -- new allocations of different threads
    have key : ∀ u, u ≠ t → ∀ b b', m.nbuf ≤ b → b < μ₁.nbuf → m.nbuf ≤ b' → b' < (μ u).nbuf → σ₁ b ≠ σ u b' := by
      intro u e b b' h4 h5 h6 h7
      by_cases hb : b < (μ t).nbuf
      · rw [hS.same b hb]; exact hI.apart t u (Ne.symm e) b b' h4 hb h6 h7
      · have := hS.new b (by omega) h5
        have := (hI.copy u).lt b' h7
        omega
    intro u v huv b b'
    by_cases e : u = t
    · subst e
      rw [if_pos rfl, if_pos rfl, if_neg (Ne.symm huv), if_neg (Ne.symm huv)]
      exact key v (Ne.symm huv) b b'
    · by_cases e' : v = t
      · subst e'
        rw [if_pos rfl, if_pos rfl, if_neg e, if_neg e]
        exact fun h4 h5 h6 h7 => (key u e b' b h6 h7 h4 h5).symm
      · rw [if_neg e, if_neg e, if_neg e', if_neg e']
        exact hI.apart u v huv b b'
  · intro u
    by_cases e : u = t
    · subst e; rw [if_pos rfl, if_pos rfl, hy₂]; exact hS.ren
    · rw [if_neg e, if_neg e, hy₁ u e, h3 u e]; exact hI.ren u
  · intro u
    by_cases e : u = t
    · subst e; rw [if_pos rfl, if_pos rfl]; exact hS.copy
    · rw [if_neg e, if_neg e]
      have hC := hI.copy u
      exact ⟨fun b hb => Nat.lt_of_lt_of_le (hC.lt b hb) hS.mle, fun b hb => (hS.msize _ (hC.lt b hb)).trans (hC.size b hb), hC.none,
        fun b i hb ha => (hkeep u e b i hb ha).trans (hC.cell b i hb ha)⟩
  · intro u
    by_cases e : u = t
    · subst e; rw [if_pos rfl, hy₂]; exact hin
    · rw [if_neg e, hy₁ u e]; exact hI.inside u
  · intro u
    by_cases e : u = t
    · subst e; rw [if_pos rfl, hy₂, hS.run]; exact hI.run u
    · rw [if_neg e, hy₁ u e]; exact hI.run u
  · intro b hb
    rw [hS.msize b (Nat.lt_of_lt_of_le hb hI.mle)]; exact hI.size b hb
  · intro b i hb hw
    rw [hS.mcell b i (Nat.lt_of_lt_of_le hb hI.mle) fun b₀ hb₀ hσ hw' => ?_]
    · exact hI.rest b i hb hw
    · by_cases hb₁ : m.nbuf ≤ b₀
      · have := hI.high t b₀ hb₁; omega
      · rw [hI.low t b₀ (by omega)] at hσ
        subst hσ
        exact hw t (hw'.resolve_left (by omega))
  · unfold allLeft'
    apply Finset.sum_lt_sum
    · intro u _
      dsimp only
      by_cases e : u = t
      · subst e; rw [if_pos rfl, hy₂]; exact Nat.le_of_lt hS.left
      · rw [if_neg e, hy₁ u e]
    · exact ⟨t, Finset.mem_univ t, by dsimp only; rw [if_pos rfl, hy₂]; exact hS.left⟩

theorem ATh.steps {x : (t : Fin k) → Prog (τ t)} {m : Mem} {R W : Fin k → Nat → Nat → Prop} {c₀ : Threads k τ} {y₀ : (t : Fin k) → Prog (τ t)} {μ₀ : Fin k → Mem}
    {σ₀ : Fin k → Nat → Nat} (hI : ATh x m R W c₀ y₀ μ₀ σ₀) (hu : ∀ t, (x t).run m ≠ .ub)
    (hd : ∀ t u, t ≠ u → ∀ b i, b < m.nbuf → W t b i → ¬ (R u b i ∨ W u b i)) {n c}
    (h : Threads.Steps n c₀ c) : ∃ y μ σ, ATh x m R W c y μ σ ∧ n + allLeft' y μ ≤ allLeft' y₀ μ₀ := by
  induction h with
  | refl c => exact ⟨y₀, μ₀, σ₀, hI, by omega⟩
  | tail _ hs ih =>
    obtain ⟨y, μ, σ, h1, h2⟩ := ih hI
    obtain ⟨y', μ', σ', h3, h4⟩ := h1.step hu hd hs
    exact ⟨y', μ', σ', h3, by omega⟩

unseal Ren in
/-- The access a thread is about to make is that of its private run. -/
theorem Ren.pending {Q : α → α → Prop} {ρ : Nat → Nat} {y x : Prog α} (h : Ren ρ Q y x) (hy : y ≠ .ub) {a : Access} (ha : x.pending = some a) :
    ∃ a', y.pending = some a' ∧ a = a'.ren ρ := by
  cases y with
  | ub => exact absurd rfl hy
  | load p n k =>
    cases x <;> first | (cases ha; done) | (simp only [Prog.pending, Option.some.injEq] at ha; subst ha; obtain ⟨rfl, rfl, -⟩ := h; exact ⟨_, rfl, rfl⟩) | exact h.elim
  | store p bs k =>
    cases x <;> first | (cases ha; done) | (simp only [Prog.pending, Option.some.injEq] at ha; subst ha; obtain ⟨rfl, rfl, -⟩ := h; exact ⟨_, rfl, rfl⟩) | exact h.elim
  | _ => cases x <;> first | (cases ha; done) | exact h.elim

theorem covers_ren {a : Access} {ρ : Nat → Nat} {b i : Nat} (h : Spec.Covers (a.ren ρ) b i) : ∃ b₀, ρ b₀ = b ∧ Spec.Covers a b₀ i := by
  cases a with
  | load p n => exact ⟨p.buf, h.1.symm, rfl, h.2⟩
  | store p n => exact ⟨p.buf, h.1.symm, rfl, h.2⟩

/-- A safe program that is about to make an access accesses allocations that exist. -/
theorem pending_exists {x : Prog α} {μ : Mem} (hu : x.run μ ≠ .ub) (h0 : ∀ b, μ.nbuf ≤ b → μ.size b = 0) {a : Access} (ha : x.pending = some a) {b i : Nat}
    (hc : Spec.Covers a b i) : b < μ.nbuf := by
  by_contra hb
  have hz := h0 b (by omega)
  cases x <;> simp only [Prog.pending, Option.some.injEq, reduceCtorEq] at ha
  · subst ha
    obtain ⟨rfl, h1, h2⟩ := hc
    refine hu ?_
    simp only [Prog.run, Mem.read]
    rw [if_neg (by omega)]
  · subst ha
    obtain ⟨rfl, h1, h2⟩ := hc
    refine hu ?_
    simp only [Prog.run]
    rw [if_neg (by omega)]

unseal Ren in
theorem Ren.ended {Q : α → α → Prop} {ρ : Nat → Nat} {y x : Prog α} (h : Ren ρ Q y x) (hi : Function.Injective ρ) (hy : y ≠ .ub) (he : x.ended = true) :
    (∃ a a', y = .pure a ∧ x = .pure a' ∧ Q a a') ∨ (y = .err ∧ x = .err) ∨ (y = .panic ∧ x = .panic) := by
  cases y with
  | ub => exact absurd rfl hy
  | pure a => cases x <;> first | exact .inl ⟨_, _, rfl, rfl, h⟩ | exact (h hi).elim | exact h.elim
  | err => cases x <;> first | exact .inr (.inl ⟨rfl, rfl⟩) | exact (h hi).elim | exact h.elim
  | panic => cases x <;> first | exact .inr (.inr ⟨rfl, rfl⟩) | exact (h hi).elim | exact h.elim
  | _ => cases x <;> first | exact (h hi).elim | exact h.elim | exact nomatch he

/-- Programs that access different bytes of the allocations that exist at the beginning, except for reading in common, do not disturb each other. -/
theorem isolated' {x : (t : Fin k) → Prog (τ t)} {m : Mem} {R W : Fin k → Nat → Nat → Prop} (hm : Spec.Tidy m)
    (hr : ∀ t ρ, (∀ b, b < m.nbuf → ρ b = b) → Function.Injective ρ → Ren ρ (fun a a' => a' = Spec.Moves.move ρ a) (x t) (x t)) (hu : ∀ t, (x t).run m ≠ .ub)
    (hi : ∀ t, Inside (fun b i => m.nbuf ≤ b ∨ R t b i) (fun b i => m.nbuf ≤ b ∨ W t b i) ((x t).trace m))
    (hd : ∀ t u, t ≠ u → ∀ b i, b < m.nbuf → W t b i → ¬ (R u b i ∨ W u b i)) : Spec.Isolated' x m W := by
  have hI : ATh x m R W ⟨x, m⟩ x (fun _ => m) (fun _ b => b) :=
    { low := fun _ _ _ => rfl
      inj := fun _ _ _ h => h
      high := fun _ _ h => h
      le := fun _ => Nat.le_refl _
      mle := Nat.le_refl _
      apart := fun _ _ _ b b' h1 h2 => by omega
      ren := fun t ρ h1 h2 => hr t ρ h2 h1
      copy := fun _ => ⟨fun _ h => h, fun _ _ => rfl, hm, fun _ _ _ _ => rfl⟩
      inside := hi
      run := fun _ => rfl
      size := fun _ _ => rfl
      rest := fun _ _ _ _ => rfl }
  refine ⟨allLeft' x (fun _ => m), fun n c hs => ?_⟩
  obtain ⟨y, μ, σ, hI, hN⟩ := hI.steps hu hd hs
  have hut : ∀ t, (y t).run (μ t) ≠ .ub := fun t => by rw [hI.run t]; exact hu t
  have hy : ∀ t, y t ≠ .ub := fun t h => hut t (by rw [h]; rfl)
  have hR := fun t => hI.ren t (σ t) (hI.inj t) fun _ _ => rfl
  refine ⟨by omega, fun t h => ?_, fun t u htu hrace => ?_, ?_, fun he => ⟨σ, hI.low, hI.inj, fun t u htu b b' h1 h2 h3 h4 => ?_, fun t => ?_, hI.mle, hI.size, hI.rest⟩⟩
  · rcases (hR t).ended (hI.inj t) (hy t) (by rw [h]; rfl) with ⟨a, a', -, h', -⟩ | ⟨-, h'⟩ | ⟨-, h'⟩ <;> rw [h] at h' <;> cases h'
  · obtain ⟨p, l, a, b, i, h1, h2, h3, h4⟩ := hrace
    obtain ⟨a₁, h5, h6⟩ := (hR t).pending (hy t) h1
    obtain ⟨a₂, h7, rfl⟩ := (hR u).pending (hy u) h2
    cases a₁ with
    | load p₁ l₁ => cases h6
    | store p₁ l₁ =>
      obtain ⟨b₁, h8, h9⟩ := covers_ren (a := .store p₁ l₁) (ρ := σ t) (b := b) (i := i) (by rw [← h6]; exact h3)
      obtain ⟨b₂, h10, h11⟩ := covers_ren h4
      have hb₁ := pending_exists (hut t) (hI.copy t).none h5 h9
      have hb₂ := pending_exists (hut u) (hI.copy u).none h7 h11
      have hw : m.nbuf ≤ b₁ ∨ W t b₁ i := hI.inside t _ (pending_mem (μ t) h5) b₁ i h9
      have hrw : m.nbuf ≤ b₂ ∨ R u b₂ i ∨ W u b₂ i := by
        have := hI.inside u _ (pending_mem (μ u) h7)
        cases a₂ with
        | load r n => exact (this b₂ i h11).imp id .inl
        | store r n => exact (this b₂ i h11).imp id .inr
      by_cases hl₁ : b₁ < m.nbuf
      · rw [hI.low t b₁ hl₁] at h8
        by_cases hl₂ : b₂ < m.nbuf
        · rw [hI.low u b₂ hl₂] at h10
          subst h8 h10
          exact hd t u htu b₂ i hl₂ (hw.resolve_left (by omega)) (hrw.resolve_left (by omega))
        · have := hI.high u b₂ (by omega); omega
      · by_cases hl₂ : b₂ < m.nbuf
        · rw [hI.low u b₂ hl₂] at h10
          have := hI.high t b₁ (by omega); omega
        · exact hI.apart t u htu b₁ b₂ (by omega) hb₁ (by omega) hb₂ (h8.trans h10.symm)
  · by_cases he : ∀ t, (c.thread t).ended = true
    · exact .inr he
    · left
      rw [not_forall] at he
      obtain ⟨t, ht⟩ := he
      refine ⟨⟨fun u => if e : u = t then e ▸ ((c.thread t).next c.mem).1 else c.thread u, ((c.thread t).next c.mem).2⟩, t, by simpa using ht, ?_, rfl, ?_⟩
      · simp
      · intro u hut; simp [hut]
  · have hend : ∀ t, Spec.nbufAfter m ((x t).run m) ≤ (μ t).nbuf := fun t => by
      rw [← hI.run t]
      rcases (hR t).ended (hI.inj t) (hy t) (he t) with ⟨a, a', h, -, -⟩ | ⟨h, -⟩ | ⟨h, -⟩ <;> rw [h]
      · exact Nat.le_refl _
      · exact Nat.le_refl _
      · exact hI.le t
    exact hI.apart t u htu b b' h1 (Nat.lt_of_lt_of_le h2 (hend t)) h3 (Nat.lt_of_lt_of_le h4 (hend u))
  · unfold Spec.EndedLike'
    rw [← hI.run t]
    have hC := hI.copy t
    have hW : ∀ b i, b < m.nbuf → W t b i → c.mem.cell b i = (μ t).cell b i := fun b i hb hw => by
      have := hC.cell b i (Nat.lt_of_lt_of_le hb (hI.le t)) (.inr (.inr hw))
      rwa [hI.low t b hb] at this
    rcases (hR t).ended (hI.inj t) (hy t) (he t) with ⟨a, a', h, h', hq⟩ | ⟨h, h'⟩ | ⟨h, h'⟩ <;> rw [h, h']
    · exact ⟨by rw [hq], hW, fun b h1 h2 => ⟨hI.high t b h1, hC.lt b h2, hC.size b h2, fun i => hC.cell b i h2 (.inl h1)⟩⟩
    · exact ⟨rfl, hW⟩
    · rfl

end

end Simd
