import Verif.Model.Trace
/-
Comparing the accesses of two runs.
-/
namespace Simd.Spec

/-- The accesses of one run are the first accesses of the other; the run that is accepted is not the shorter one. -/
def Lockstep (ok ok' : Prop) (t t' : List Access) : Prop :=
  (ok → t' <+: t) ∧ (ok' → t <+: t') ∧ (t <+: t' ∨ t' <+: t)

/-- Both texts have '=' at the same places (and so the same length). -/
def SameMarks (xs xs' : List Byte) : Prop := xs.map (· == 0x3d#8) = xs'.map (· == 0x3d#8)

end Simd.Spec
