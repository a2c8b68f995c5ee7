import Verif.Model.Trace
/-
Threads that call functions of the crates at the same time. The crates start no threads themselves except through Rayon (Verif/Model/Parallel.lean),
but their functions take `&[u8]` and `&mut [u8]`, which are `Send`/`Sync`, and no function keeps state except the dispatch pointer
(crates/vsimd/src/macros.rs:103-130, Verif/Model/Dispatch.lean). This is a model of a client: each thread runs one program, the threads'
memory accesses are interleaved in any order. Simplification: accesses are sequentially consistent, which is what the memory model of Rust guarantees to programs
without data races; a data race is an error of its own.
-/
namespace Simd

/-- The thread has returned, panicked (unwinding ends only this thread), or has undefined behaviour. -/
def Prog.ended {α : Type} : Prog α → Bool
  | .pure _ => true
  | .err => true
  | .panic => true
  | .ub => true
  | _ => false

/-- The next step of a thread (the same steps as `Prog.run`, Verif/Model/Core.lean). -/
def Prog.next {α : Type} : Prog α → Mem → Prog α × Mem
  | .pure a, m => (.pure a, m)
  | .err, m => (.err, m)
  | .panic, m => (.panic, m)
  | .ub, m => (.ub, m)
  | .load p n k, m =>
    match m.read p n with
    | some bs => (k bs, m)
    | none => (.ub, m)
  | .store p bs k, m => if p.off + bs.length ≤ m.size p.buf then (k, m.write p bs) else (.ub, m)
  | .chk p k, m => if p.off ≤ m.size p.buf then (k, m) else (.ub, m)
  | .alloc n k, m => (k m.nbuf, m.alloc n)

/-- The access a thread is about to make. -/
def Prog.pending {α : Type} : Prog α → Option Access
  | .load p n _ => some (.load p n)
  | .store p bs _ => some (.store p bs.length)
  | _ => none

/-- `k` threads, each with its own type of result, and the memory they share. -/
structure Threads (k : Nat) (α : Fin k → Type) where
  thread : (t : Fin k) → Prog (α t)
  mem : Mem

/-- Some thread that has not ended makes a step. -/
def Threads.Step {k : Nat} {α : Fin k → Type} (c c' : Threads k α) : Prop :=
  ∃ t, (c.thread t).ended = false ∧ c'.thread t = ((c.thread t).next c.mem).1 ∧ c'.mem = ((c.thread t).next c.mem).2 ∧
    ∀ u, u ≠ t → c'.thread u = c.thread u

/-- `n` steps. -/
inductive Threads.Steps {k : Nat} {α : Fin k → Type} : Nat → Threads k α → Threads k α → Prop where
  | refl (c) : Threads.Steps 0 c c
  | tail {n a b c} : Threads.Steps n a b → Threads.Step b c → Threads.Steps (n + 1) a c

end Simd
