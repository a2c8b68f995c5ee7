import Verif.Model.BorrowPar
import Verif.Spec.Borrows
/-
What a call that returns a slice, and that may use several threads, may do to the borrow stacks.
-/
namespace Simd.Spec
open Borrow

/-- The call `c`, made in `s`, has ended with borrow stacks as `o` says it ends without them: not with undefined behaviour, with the same memory and the same result; and the stacks changed only
as the loans of `c` allow. -/
def SameEnd (s : State) (c : Call Slice) : Result Slice → Out Slice → Prop
  | .ok r s', .ok r' m => s'.mem = m ∧ AfterCall s s' (loans s c) ∧ FreshSlice 1 s' r r'
  | .err s', .err m => s'.mem = m ∧ AfterCall s s' (loans s c)
  | .panic, .panic => True
  | _, _ => False

end Simd.Spec
