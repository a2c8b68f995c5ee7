import Verif.Model.Core
/-
A client that processes data in pieces. This is not code of the repository; it is the sequence of calls a user makes.
-/
namespace Simd.Spec

/-- Call `f` on each piece in turn, giving it what is left of the `d` bytes at `q`; returns the number of bytes written. -/
def inChunks (f : Slice → Slice → Prog Slice) : List Slice → Ptr → Nat → Prog Nat
  | [], _, _ => pure 0
  | s :: ss, q, d => do
    let t ← f s ⟨q, d⟩
    let n ← inChunks f ss ⟨q.buf, q.off + t.len⟩ (d - t.len)
    pure (t.len + n)

/-- All pieces but the last have a length divisible by `g`. -/
def Blocks (g : Nat) : List (List (BitVec 8)) → Prop
  | [] => True
  | [_] => True
  | a :: b :: r => a.length % g = 0 ∧ Blocks g (b :: r)

end Simd.Spec
