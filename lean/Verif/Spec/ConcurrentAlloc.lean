import Verif.Spec.Concurrent
import Verif.Model.Owned
/-
What it means that concurrent calls that allocate do not disturb each other. The number an allocation gets depends on how the threads are scheduled,
so the results are compared up to the numbers of the allocations made meanwhile.
-/
namespace Simd.Spec

/-- Results that may refer to allocations: `move σ a` is `a` with every allocation `b` replaced by `σ b`. -/
class Moves (α : Type) where
  move : (Nat → Nat) → α → α

instance : Moves Unit := ⟨fun _ a => a⟩
instance : Moves Bool := ⟨fun _ a => a⟩
instance : Moves Slice := ⟨fun σ s => ⟨⟨σ s.ptr.buf, s.ptr.off⟩, s.len⟩⟩
instance : Moves RVec := ⟨fun σ v => ⟨σ v.buf, v.len, v.cap⟩⟩
instance : Moves (RVec × Except Unit Unit) := ⟨fun σ r => (⟨σ r.1.buf, r.1.len, r.1.cap⟩, r.2)⟩
instance : Moves Owned := ⟨fun σ o => match o with
  | .bytes s => .bytes ⟨⟨σ s.ptr.buf, s.ptr.off⟩, s.len⟩
  | .str s => .str ⟨⟨σ s.ptr.buf, s.ptr.off⟩, s.len⟩
  | .vec v => .vec ⟨σ v.buf, v.len, v.cap⟩
  | .string v => .string ⟨σ v.buf, v.len, v.cap⟩⟩

/-- Nothing is known to exist beyond the allocations that have been made. -/
def Tidy (m : Mem) : Prop := ∀ b, m.nbuf ≤ b → m.size b = 0

/-- The thread ended like the run `r` from the memory `m₀`, except that its new allocations have the numbers `σ` gives: the bytes `W` of the old allocations and all new allocations
are as that run left them (nothing is said about them after a panic). -/
def EndedLike' {α : Type} [Moves α] (m₀ : Mem) (r : Out α) (W : Nat → Nat → Prop) (σ : Nat → Nat) (x : Prog α) (m : Mem) : Prop :=
  match r with
  | .ok a m' => x = .pure (Moves.move σ a) ∧ (∀ b i, b < m₀.nbuf → W b i → m.cell b i = m'.cell b i) ∧
    ∀ b, m₀.nbuf ≤ b → b < m'.nbuf → m₀.nbuf ≤ σ b ∧ σ b < m.nbuf ∧ m.size (σ b) = m'.size b ∧ ∀ i, m.cell (σ b) i = m'.cell b i
  | .err m' => x = .err ∧ ∀ b i, b < m₀.nbuf → W b i → m.cell b i = m'.cell b i
  | .panic => x = .panic
  | .ub => False

/-- The number of allocations after a run. -/
def nbufAfter {α : Type} (m : Mem) : Out α → Nat
  | .ok _ m' => m'.nbuf
  | .err m' => m'.nbuf
  | _ => m.nbuf

/-- However the threads `x` are scheduled from memory `m`: no data race, no undefined behaviour, no deadlock, an end after a bounded number of steps, and at the end there are numbers `σ t` for the
allocations each thread has made, different for different threads, such that each thread has the outcome it has when run alone, its bytes `W t` and its new allocations are as if it had run alone,
and all other bytes are as at the beginning. -/
def Isolated' {k : Nat} {α : Fin k → Type} [∀ t, Moves (α t)] (x : (t : Fin k) → Prog (α t)) (m : Mem) (W : Fin k → Nat → Nat → Prop) : Prop :=
  ∃ N, ∀ n c, Threads.Steps n ⟨x, m⟩ c →
    n ≤ N ∧ (∀ t, c.thread t ≠ .ub) ∧ (∀ t u, t ≠ u → ¬ DataRace (c.thread t) (c.thread u)) ∧
    ((∃ c', Threads.Step c c') ∨ ∀ t, (c.thread t).ended = true) ∧
    ((∀ t, (c.thread t).ended = true) → ∃ σ : Fin k → Nat → Nat,
      (∀ t b, b < m.nbuf → σ t b = b) ∧ (∀ t, Function.Injective (σ t)) ∧
      (∀ t u, t ≠ u → ∀ b b', m.nbuf ≤ b → b < nbufAfter m ((x t).run m) → m.nbuf ≤ b' → b' < nbufAfter m ((x u).run m) → σ t b ≠ σ u b') ∧
      (∀ t, EndedLike' m ((x t).run m) (W t) (σ t) (c.thread t) c.mem) ∧
      m.nbuf ≤ c.mem.nbuf ∧ (∀ b, b < m.nbuf → c.mem.size b = m.size b) ∧
      ∀ b i, b < m.nbuf → (∀ t, ¬ W t b i) → c.mem.cell b i = m.cell b i)

end Simd.Spec
