import Verif.Model.BorrowExt
import Verif.Spec.BorrowHeap
import Verif.Spec.TreeExt
/-
What the functions of `UuidExt` and the formatters may do to the borrow stacks.
-/
namespace Simd.Spec
open Borrow

open Classical in
/-- What the call borrows, byte by byte: the source; and the allocations that it makes. -/
noncomputable def extLoans (s : State) (c : ExtCall) (b i : Nat) : Loan :=
  if In (place s c.shared.ptr) c.shared.len b i then .shared c.shared.ptr.buf else if s.mem.nbuf ≤ b then .own else .none

/-- After the call: the stacks of the source have at most been read and got new items for reading, those of other memory that existed are as before, the memory that existed is the same, and everything
the call allocated has been deallocated. -/
structure AfterExt (s s' : State) (c : ExtCall) : Prop where
  after : AfterCall s s' (extLoans s c)
  kept : Kept s.mem s'.mem
  freed : ∀ b, s.mem.nbuf ≤ b → b < s'.mem.nbuf → Freed s' b

/-- The call with borrow stacks, from `s`, ends as the English says for the bytes `xs`, and leaves the state as it should. -/
def ObeysExt (s : State) (c : ExtCall) (xs : List Byte) : Prop :=
  match c.borrow s with
  | .ok r s' => ExtMeans xs (some r) c ∧ AfterExt s s' c
  | .err s' => ExtMeans xs none c ∧ AfterExt s s' c
  | .panic | .ub => False

end Simd.Spec
