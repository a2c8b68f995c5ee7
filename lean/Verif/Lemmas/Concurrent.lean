import Verif.Spec.Concurrent
import Verif.Lemmas.Ren
import Mathlib.Algebra.Order.BigOperators.Group.Finset
/-
Interleaved runs of programs that write different bytes.
-/
namespace Simd

variable {α : Type}

/-- Number of steps until the program ends. -/
def Prog.stepsLeft : Prog α → Mem → Nat
  | .load p n k, m => 1 + match m.read p n with
    | some bs => (k bs).stepsLeft m
    | none => 0
  | .store p bs k, m => 1 + k.stepsLeft (m.write p bs)
  | .chk _ k, m => 1 + k.stepsLeft m
  | .alloc n k, m => 1 + (k m.nbuf).stepsLeft (m.alloc n)
  | _, _ => 0

unseal Uses in
/-- The step of a thread in its private memory `μ` and in a memory `M` that has the same bytes where the thread looks. -/
theorem next_sim {R W : Nat → Nat → Prop} {x : Prog α} {μ M : Mem} (he : x.ended = false) (hn : NoAlloc x) (ht : Inside R W (x.trace μ))
    (hu : x.run μ ≠ .ub) (hs : M.size = μ.size) (hc : ∀ b i, R b i ∨ W b i → M.cell b i = μ.cell b i) :
    (x.next M).1 = (x.next μ).1 ∧ NoAlloc (x.next μ).1 ∧ Inside R W ((x.next μ).1.trace (x.next μ).2) ∧ (x.next μ).1.run (x.next μ).2 = x.run μ ∧
    (x.next μ).1.stepsLeft (x.next μ).2 < x.stepsLeft μ ∧
    (x.next M).2.nbuf = M.nbuf ∧ (x.next M).2.size = M.size ∧ (x.next μ).2.nbuf = μ.nbuf ∧ (x.next μ).2.size = μ.size ∧
    (∀ b i, R b i ∨ W b i → (x.next M).2.cell b i = (x.next μ).2.cell b i) ∧ (∀ b i, ¬ W b i → (x.next M).2.cell b i = M.cell b i) := by
  cases x with
  | pure a => cases he
  | err => cases he
  | panic => cases he
  | ub => cases he
  | load p n k =>
    have hl : ∀ b i, Spec.In p n b i → R b i := ht (.load p n) (by simp [Prog.trace])
    have hr : M.read p n = μ.read p n := by
      unfold Mem.read
      rw [hs, readFrom_congr n p.off (fun i hi => hc _ _ (.inl (hl _ _ ⟨rfl, by omega, by omega⟩)))]
    simp only [Prog.run] at hu
    simp only [Prog.trace] at ht
    cases h : μ.read p n with
    | none => rw [h] at hu; exact absurd rfl hu
    | some bs =>
      rw [h] at ht hr
      rw [show (Prog.load p n k).next M = (k bs, M) by simp only [Prog.next, hr], show (Prog.load p n k).next μ = (k bs, μ) by simp only [Prog.next, h]]
      exact ⟨rfl, And.right hn bs, ht.tail, by simp only [Prog.run, h], by simp only [Prog.stepsLeft, h]; omega, rfl, rfl, rfl, rfl, hc, fun _ _ _ => rfl⟩
  | store p bs k =>
    have hl : ∀ b i, Spec.In p bs.length b i → W b i := ht (.store p bs.length) (by simp [Prog.trace])
    simp only [Prog.run] at hu
    simp only [Prog.trace] at ht
    by_cases h : p.off + bs.length ≤ μ.size p.buf
    · rw [if_pos h] at ht
      rw [show (Prog.store p bs k).next M = (k, M.write p bs) by simp only [Prog.next, hs, if_pos h],
        show (Prog.store p bs k).next μ = (k, μ.write p bs) by simp only [Prog.next, if_pos h]]
      refine ⟨rfl, And.right hn, ht.tail, by simp only [Prog.run, if_pos h], by simp only [Prog.stepsLeft]; omega, rfl, rfl, rfl, rfl, fun b i hbi => ?_, fun b i hbi => ?_⟩
      · simp only [Mem.write, hc b i hbi]
      · exact if_neg fun h => hbi (hl b i h)
    · rw [if_neg h] at hu; exact absurd rfl hu
  | chk p k =>
    simp only [Prog.run] at hu
    simp only [Prog.trace] at ht
    by_cases h : p.off ≤ μ.size p.buf
    · rw [if_pos h] at ht
      rw [show (Prog.chk p k).next M = (k, M) by simp only [Prog.next, hs, if_pos h], show (Prog.chk p k).next μ = (k, μ) by simp only [Prog.next, if_pos h]]
      exact ⟨rfl, hn, ht, by simp only [Prog.run, if_pos h], by simp only [Prog.stepsLeft]; omega, rfl, rfl, rfl, rfl, hc, fun _ _ _ => rfl⟩
    · rw [if_neg h] at hu; exact absurd rfl hu
  | alloc n k => exact False.elim hn

section
variable {k : Nat} {τ : Fin k → Type}

/-- `μ t` is the memory thread `t` would have had by now if it had run alone. -/
structure ThInv (x : (t : Fin k) → Prog (τ t)) (m : Mem) (R W : Fin k → Nat → Nat → Prop) (c : Threads k τ) (μ : Fin k → Mem) : Prop where
  nbuf : c.mem.nbuf = m.nbuf
  size : c.mem.size = m.size
  nbuf' : ∀ t, (μ t).nbuf = m.nbuf
  size' : ∀ t, (μ t).size = m.size
  noalloc : ∀ t, NoAlloc (c.thread t)
  inside : ∀ t, Inside (R t) (W t) ((c.thread t).trace (μ t))
  run : ∀ t, (c.thread t).run (μ t) = (x t).run m
  cell : ∀ t b i, R t b i ∨ W t b i → c.mem.cell b i = (μ t).cell b i
  rest : ∀ b i, (∀ t, ¬ W t b i) → c.mem.cell b i = m.cell b i

/-- Steps all threads still have to make. -/
def allLeft (c : Threads k τ) (μ : Fin k → Mem) : Nat := ∑ t, (c.thread t).stepsLeft (μ t)

theorem ThInv.step {x : (t : Fin k) → Prog (τ t)} {m : Mem} {R W : Fin k → Nat → Nat → Prop} {c c' : Threads k τ} {μ : Fin k → Mem}
    (hI : ThInv x m R W c μ) (hu : ∀ t, (x t).run m ≠ .ub) (hd : ∀ t u, t ≠ u → ∀ b i, W t b i → ¬ (R u b i ∨ W u b i)) (h : Threads.Step c c') :
    ∃ μ', ThInv x m R W c' μ' ∧ allLeft c' μ' < allLeft c μ := by
  obtain ⟨t, he, h1, h2, h3⟩ := h
  have hut : (c.thread t).run (μ t) ≠ .ub := by rw [hI.run t]; exact hu t
  obtain ⟨s1, s2, s3, s4, s5, s6, s7, s8, s9, s10, s11⟩ := next_sim he (hI.noalloc t) (hI.inside t) hut (M := c.mem)
    (by rw [hI.size, hI.size' t]) (hI.cell t)
  have h1' : c'.thread t = ((c.thread t).next (μ t)).1 := by rw [h1, s1]
  refine ⟨fun u => if u = t then ((c.thread t).next (μ t)).2 else μ u, ⟨?_, ?_, ?_, ?_, ?_, ?_, ?_, ?_, ?_⟩, ?_⟩
  · rw [h2, s6, hI.nbuf]
  · rw [h2, s7, hI.size]
  · intro u
    by_cases e : u = t
    · subst e; rw [if_pos rfl, s8, hI.nbuf' u]
    · rw [if_neg e, hI.nbuf' u]
  · intro u
    by_cases e : u = t
    · subst e; rw [if_pos rfl, s9, hI.size' u]
    · rw [if_neg e, hI.size' u]
  · intro u
    by_cases e : u = t
    · subst e; rw [h1']; exact s2
    · rw [h3 u e]; exact hI.noalloc u
  · intro u
    by_cases e : u = t
    · subst e; rw [h1', if_pos rfl]; exact s3
    · rw [h3 u e, if_neg e]; exact hI.inside u
  · intro u
    by_cases e : u = t
    · subst e; rw [h1', if_pos rfl, s4, hI.run u]
    · rw [h3 u e, if_neg e]; exact hI.run u
  · intro u b i hbi
    by_cases e : u = t
    · subst e; rw [if_pos rfl, h2]; exact s10 b i hbi
    · rw [if_neg e, h2, s11 b i fun hw => hd t u (fun h => e h.symm) b i hw hbi]; exact hI.cell u b i hbi
  · intro b i hbi
    rw [h2, s11 b i (hbi t)]; exact hI.rest b i hbi
  · unfold allLeft
    apply Finset.sum_lt_sum
    · intro u _
      dsimp only
      by_cases e : u = t
      · subst e; rw [h1', if_pos rfl]; exact Nat.le_of_lt s5
      · rw [h3 u e, if_neg e]
    · exact ⟨t, Finset.mem_univ t, by dsimp only; rw [h1', if_pos rfl]; exact s5⟩

theorem ThInv.steps {x : (t : Fin k) → Prog (τ t)} {m : Mem} {R W : Fin k → Nat → Nat → Prop} {c₀ : Threads k τ} {μ₀ : Fin k → Mem}
    (hI : ThInv x m R W c₀ μ₀) (hu : ∀ t, (x t).run m ≠ .ub) (hd : ∀ t u, t ≠ u → ∀ b i, W t b i → ¬ (R u b i ∨ W u b i)) {n c}
    (h : Threads.Steps n c₀ c) : ∃ μ, ThInv x m R W c μ ∧ n + allLeft c μ ≤ allLeft c₀ μ₀ := by
  induction h with
  | refl c => exact ⟨μ₀, hI, by omega⟩
  | tail _ hs ih =>
    obtain ⟨μ, h1, h2⟩ := ih hI
    obtain ⟨μ', h3, h4⟩ := h1.step hu hd hs
    exact ⟨μ', h3, by omega⟩

theorem pending_mem {x : Prog α} {a : Access} (m : Mem) (h : x.pending = some a) : a ∈ x.trace m := by
  cases x <;> simp only [Prog.pending, Option.some.injEq, reduceCtorEq] at h <;> subst h <;> simp [Prog.trace]

/-- Programs that access different bytes, except for reading in common, do not disturb each other. -/
theorem isolated {x : (t : Fin k) → Prog (τ t)} {m : Mem} {R W : Fin k → Nat → Nat → Prop} (hn : ∀ t, NoAlloc (x t)) (hu : ∀ t, (x t).run m ≠ .ub)
    (hi : ∀ t, Inside (R t) (W t) ((x t).trace m)) (hd : ∀ t u, t ≠ u → ∀ b i, W t b i → ¬ (R u b i ∨ W u b i)) : Spec.Isolated x m W := by
  have hI : ThInv x m R W ⟨x, m⟩ (fun _ => m) := ⟨rfl, rfl, fun _ => rfl, fun _ => rfl, hn, hi, fun _ => rfl, fun _ _ _ _ => rfl, fun _ _ _ => rfl⟩
  refine ⟨allLeft ⟨x, m⟩ (fun _ => m), fun n c hs => ?_⟩
  obtain ⟨μ, hI, hN⟩ := hI.steps hu hd hs
  refine ⟨by omega, fun t h => hu t ?_, fun t u htu hr => ?_, ?_, fun he => ⟨fun t => ?_, hI.nbuf, hI.size, hI.rest⟩⟩
  · rw [← hI.run t, h]; rfl
  · obtain ⟨p, l, a, b, i, h1, h2, h3, h4⟩ := hr
    have hw : W t b i := hI.inside t _ (pending_mem (μ t) h1) b i h3
    refine hd t u htu b i hw ?_
    have := hI.inside u a (pending_mem (μ u) h2)
    cases a with
    | load r n => exact .inl (this b i h4)
    | store r n => exact .inr (this b i h4)
  · by_cases he : ∀ t, (c.thread t).ended = true
    · exact .inr he
    · left
      rw [not_forall] at he
      obtain ⟨t, ht⟩ := he
      refine ⟨⟨fun u => if e : u = t then e ▸ ((c.thread t).next c.mem).1 else c.thread u, ((c.thread t).next c.mem).2⟩, t, by simpa using ht, ?_, rfl, ?_⟩
      · simp
      · intro u hut; simp [hut]
  · have hr := hI.run t
    have het := he t
    have hub := hu t
    have hcell := hI.cell t
    unfold Spec.EndedLike
    rw [← hr] at hub ⊢
    cases hx : c.thread t <;> rw [hx] at het hub <;> try cases het
    · exact ⟨rfl, fun b i h => hcell b i (.inr h)⟩
    · exact ⟨rfl, fun b i h => hcell b i (.inr h)⟩
    · rfl
    · exact hub rfl

end

end Simd
