import Verif.Model.Trace
/-
Alignment of accesses relative to a base pointer.
-/
namespace Simd.Spec

/-- `p` is a whole number of `w`-byte elements behind `base`: if `base` is aligned for such elements, so is `p`. -/
def WholeSteps (w : Nat) (base p : Ptr) : Prop := p.buf = base.buf ∧ ∃ k, p.off = base.off + w * k

/-- Every load is a whole number of elements behind `src`, every store behind `dst`. -/
def StepAccesses (w : Nat) (src dst : Ptr) (t : List Access) : Prop :=
  ∀ a ∈ t, match a with
    | .load p _ => WholeSteps w src p
    | .store p _ => WholeSteps w dst p

end Simd.Spec
