import Verif.Spec.LendTwin
import Verif.Spec.TreeUsePlain
/-
Programs with references on two machines, under either set of rules for references.
-/
namespace Simd
open Spec
open Client (Seen)

namespace Lend.Plain

/-- What two programs have in plain memory is the same: types and lengths of variables, live references, and the bytes in all that can be read. Addresses and capacities are not compared. -/
structure Alike (p p' : Plain) : Prop where
  kinds : p.kinds = p'.kinds
  shapes : p.shapes = p'.shapes
  bytes : ∀ x i, Known p.kinds p.shapes x i → p.byte x i = p'.byte x i

/-- The step leaves nothing open (as `Lend.Exact`). -/
def Exact (p : Plain) : Op → Prop
  | .call c _ => ∀ xs res, xs.length = (input c).2 → Reads p.mem (p.at' (input c).1) xs → CallMeans xs c.exclusive.2 res c → touched xs c.exclusive.2 res c ≤ (res.getD []).length
  | _ => True

end Lend.Plain

/-- The runs of a program on a machine, under the rules of Tree Borrows, in which no step leaves anything open (as `Lend.Ported`). -/
inductive Tree.Use.Ported (M : Machine) (p : Lend.Program) : List Seen → Tree.Use.World → Prop where
  | start : Ported M p [] .start
  | step {h : List Seen} {u u' : World} {op : Step} {v : Seen} : Ported M p h u → p h = some (Lend.source op.op) → op.Legal M u → u.plain.Exact op.op → Shows M.P u op v (.ok u') → Ported M p (h ++ [v]) u'

end Simd
