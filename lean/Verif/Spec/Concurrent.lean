import Verif.Model.Concurrent
import Verif.Spec.Footprint
/-
What it means that concurrent calls do not disturb each other.
-/
namespace Simd.Spec

/-- The bytes of an access. -/
def Covers : Access → Nat → Nat → Prop
  | .load p n, b, i => In p n b i
  | .store p n, b, i => In p n b i

/-- Two threads are about to access the same byte, the first of them to write it: a data race. -/
def DataRace {α β : Type} (x : Prog α) (y : Prog β) : Prop :=
  ∃ p n a b i, x.pending = some (.store p n) ∧ y.pending = some a ∧ In p n b i ∧ Covers a b i

/-- The thread ended like the run `r`, and the bytes `W` of the memory are as that run left them (nothing is said about them after a panic). -/
def EndedLike {α : Type} (r : Out α) (W : Nat → Nat → Prop) (x : Prog α) (m : Mem) : Prop :=
  match r with
  | .ok a m' => x = .pure a ∧ ∀ b i, W b i → m.cell b i = m'.cell b i
  | .err m' => x = .err ∧ ∀ b i, W b i → m.cell b i = m'.cell b i
  | .panic => x = .panic
  | .ub => False

/-- However the threads `x` are scheduled from memory `m`: no data race, no undefined behaviour, no deadlock, an end after a bounded number of steps, and at the end each thread has
the outcome it has when run alone, its bytes `W t` are as if it had run alone, and all other bytes are as at the beginning. -/
def Isolated {k : Nat} {α : Fin k → Type} (x : (t : Fin k) → Prog (α t)) (m : Mem) (W : Fin k → Nat → Nat → Prop) : Prop :=
  ∃ N, ∀ n c, Threads.Steps n ⟨x, m⟩ c →
    n ≤ N ∧ (∀ t, c.thread t ≠ .ub) ∧ (∀ t u, t ≠ u → ¬ DataRace (c.thread t) (c.thread u)) ∧
    ((∃ c', Threads.Step c c') ∨ ∀ t, (c.thread t).ended = true) ∧
    ((∀ t, (c.thread t).ended = true) →
      (∀ t, EndedLike ((x t).run m) (W t) (c.thread t) c.mem) ∧ c.mem.nbuf = m.nbuf ∧ c.mem.size = m.size ∧
      ∀ b i, (∀ t, ¬ W t b i) → c.mem.cell b i = m.cell b i)

end Simd.Spec
