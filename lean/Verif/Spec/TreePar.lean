import Verif.Model.TreePar
import Verif.Spec.TreeBorrows
/-
What a call that returns a slice, and that may use several threads, may do to the borrow trees.
-/
namespace Simd.Tree

/-- The call `c`, made in `s`, has ended with borrow trees as `o` says it ends without them: not with undefined behaviour, with the same memory and the same result; and the trees changed only
as the loans of `c` allow. -/
def SameEnd (s : State) (c : Call Slice) : Result Slice → Out Slice → Prop
  | .ok r s', .ok r' m => s'.mem = m ∧ AfterCall s s' (loans s c) ∧ FreshSlice 1 s s' c.exclusive.1.buf r r'
  | .err s', .err m => s'.mem = m ∧ AfterCall s s' (loans s c)
  | .panic, .panic => True
  | _, _ => False

end Simd.Tree
