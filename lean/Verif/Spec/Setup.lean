import Verif.Model.Heap
/-
Notions used to state properties of whole calls.
-/
namespace Simd

/-- The slice covering buffer `b` of length `n`. -/
def whole (b n : Nat) : Slice := ⟨⟨b, 0⟩, n⟩

/-- The run neither panics nor has undefined behaviour. -/
def Out.Safe {α : Type} : Out α → Prop
  | .ok _ _ => True
  | .err _ => True
  | .panic => False
  | .ub => False

/-- A `Vec` holding `prev` with spare capacity `spare`, as buffer 1. -/
def vecOf (prev : List Byte) (spare : List Cell) : RVec := ⟨1, prev.length, prev.length + spare.length⟩

end Simd
