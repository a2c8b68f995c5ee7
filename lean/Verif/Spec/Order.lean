/-
The order of byte strings.
-/
namespace Simd.Spec

/-- `a` comes before `b`: bytewise comparison, a proper prefix comes first (`Ord` for `[u8]` and `str`, `memcmp`). -/
def Before : List (BitVec 8) → List (BitVec 8) → Prop
  | _, [] => False
  | [], _ :: _ => True
  | x :: xs, y :: ys => x.toNat < y.toNat ∨ x = y ∧ Before xs ys

end Simd.Spec
