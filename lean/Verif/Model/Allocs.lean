import Verif.Model.Core
/-
The heap allocations a program makes when it is run (the same steps as `Prog.run`, Verif/Model/Core.lean).
-/
namespace Simd

/-- The sizes of the allocations of a run, in order, up to a return, an error, a panic or undefined behaviour: what an allocator that counts would see
of `alloc_uninit_bytes` (crates/vsimd/src/tools.rs:18-32), `Vec::reserve_exact` and `Vec::with_capacity`. An empty box is modelled as an allocation of size 0;
the standard library makes no allocation for it, so sizes of 0 are not listed. -/
def Prog.allocs {α : Type} : Prog α → Mem → List Nat
  | .pure _, _ => []
  | .err, _ => []
  | .panic, _ => []
  | .ub, _ => []
  | .load p n k, m =>
    match m.read p n with
    | some bs => (k bs).allocs m
    | none => []
  | .store p bs k, m => if p.off + bs.length ≤ m.size p.buf then k.allocs (m.write p bs) else []
  | .chk p k, m => if p.off ≤ m.size p.buf then k.allocs m else []
  | .alloc n k, m => if n = 0 then (k m.nbuf).allocs (m.alloc n) else n :: (k m.nbuf).allocs (m.alloc n)

end Simd
