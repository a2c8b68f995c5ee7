import Verif.Model.TreeExt
import Verif.Spec.TreeHeap
import Verif.Spec.Uuid
import Verif.Spec.Raw
import Verif.Props.Interop
/-
What the functions of `UuidExt` and the formatters may do to the borrow trees.
-/
namespace Simd
open Spec (In)

/-- The implementations a call uses are ones that the machine may execute. -/
def ExtCall.RunsOn (M : Machine) : ExtCall → Prop
  | .parse si hi _ => M.Runs Dispatch.uuid_parse_simple si ∧ M.Runs Dispatch.uuid_parse_hyphenated hi
  | .parseSimple i _ => M.Runs Dispatch.uuid_parse_simple i
  | .parseHyphenated i _ => M.Runs Dispatch.uuid_parse_hyphenated i
  | .formatSimple i _ _ => M.Runs Dispatch.uuid_format_simple i
  | .formatHyphenated i _ _ => M.Runs Dispatch.uuid_format_hyphenated i

/-- What the call returns for the bytes `xs`; `none` is `Err`. -/
def Spec.ExtMeans (xs : List Byte) (r : Option (List Byte)) : ExtCall → Prop
  | .parse .. => match r with | some u => Spec.IsUuid xs u | none => ¬ ∃ u, Spec.IsUuid xs u
  | .parseSimple .. => match r with | some u => Spec.IsUuidSimple xs u | none => ¬ ∃ u, Spec.IsUuidSimple xs u
  | .parseHyphenated .. => match r with | some u => Spec.IsUuidHyphenated xs u | none => ¬ ∃ u, Spec.IsUuidHyphenated xs u
  | .formatSimple _ case _ => r = some (Spec.uuidSimple (case == .upper) xs)
  | .formatHyphenated _ case _ => r = some (Spec.uuidHyphenated (case == .upper) xs)

open Classical in
/-- What the call borrows, byte by byte. -/
noncomputable def Tree.extLoans (s : Tree.State) (c : ExtCall) (b i : Nat) : Tree.Loan :=
  if In (place s c.shared.ptr) c.shared.len b i then .shared c.shared.ptr.buf else .none

/-- After the call: the tags that existed see at most one read of the source, the memory that existed is the same, and everything the call allocated has been deallocated. -/
structure Tree.AfterExt (s s' : Tree.State) (c : ExtCall) : Prop where
  after : Tree.AfterCall s s' (Tree.extLoans s c)
  kept : Spec.Kept s.mem s'.mem
  freed : ∀ b, s.mem.nbuf ≤ b → b < s'.mem.nbuf → Tree.Freed s' b

/-- The call with borrow trees, from `s`, ends as the English says for the bytes `xs`, and leaves the state as it should. -/
def Tree.ObeysExt (s : Tree.State) (c : ExtCall) (xs : List Byte) : Prop :=
  match c.tree s with
  | .ok r s' => Spec.ExtMeans xs (some r) c ∧ Tree.AfterExt s s' c
  | .err s' => Spec.ExtMeans xs none c ∧ Tree.AfterExt s s' c
  | .panic | .ub => False

end Simd
