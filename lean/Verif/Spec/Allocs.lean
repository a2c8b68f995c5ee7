import Verif.Model.Heap
/-
The heap allocations a call should make.
-/
namespace Simd.Spec

/-- A new buffer of exactly `n` bytes: one allocation, none for an empty one. -/
def fresh (n : Nat) : List Nat := if n = 0 then [] else [n]

/-- Room for `n` more bytes in the vector `v`: nothing if the spare capacity suffices, else one allocation for the old content, the `n` bytes and
whatever `extra` the allocator adds; nothing if that is more than a vector may have (the call panics). -/
def grow (P : Plat) (extra : Nat) (v : RVec) (n : Nat) : List Nat :=
  if n ≤ v.cap - v.len then [] else if v.len + n + extra ≤ P.isizeMax then [v.len + n + extra] else []

end Simd.Spec
