import Verif.Model.Core
/-
The memory accesses a program makes when it is run (the same steps as `Prog.run`, Verif/Model/Core.lean).
-/
namespace Simd

/-- A load or store of `n` bytes at `p`. -/
inductive Access where
  | load (p : Ptr) (n : Nat)
  | store (p : Ptr) (n : Nat)
deriving DecidableEq, Repr

/-- All accesses of a run, in order, up to a return, an error, a panic or undefined behaviour (that access included). -/
def Prog.trace {α : Type} : Prog α → Mem → List Access
  | .pure _, _ => []
  | .err, _ => []
  | .panic, _ => []
  | .ub, _ => []
  | .load p n k, m =>
    .load p n :: match m.read p n with
      | some bs => (k bs).trace m
      | none => []
  | .store p bs k, m => .store p bs.length :: if p.off + bs.length ≤ m.size p.buf then k.trace (m.write p bs) else []
  | .chk p k, m => if p.off ≤ m.size p.buf then k.trace m else []
  | .alloc n k, m => (k m.nbuf).trace (m.alloc n)

end Simd
