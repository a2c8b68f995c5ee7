import Verif.Model.Trace
/-
How much work a call does on memory.
-/
namespace Simd.Spec

/-- The bytes of an access, and one for the access itself. -/
def _root_.Simd.Access.work : Access → Nat
  | .load _ n => n + 1
  | .store _ n => n + 1

/-- The number of accesses plus the number of bytes accessed, repetitions included. -/
def work (t : List Access) : Nat := (t.map Access.work).sum

example : work [.load ⟨0, 3⟩ 4, .store ⟨1, 0⟩ 2, .load ⟨0, 3⟩ 4] = 13 := rfl

end Simd.Spec
