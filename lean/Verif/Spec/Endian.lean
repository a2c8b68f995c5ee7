import Verif.Spec.Unicode
import Verif.Model.Endian
/-
Integers in memory, for both byte orders.
-/
namespace Simd.Spec

/-- The bytes of a slice of `n`-byte integers in memory order: least significant byte first on little-endian targets, last on big-endian ones. -/
def memBytes {w : Nat} (e : ByteOrder) (n : Nat) (ws : List (BitVec w)) : List Byte :=
  match e with
  | .little => ws.flatMap fun x => (List.range n).map (wordByte x)
  | .big => ws.flatMap fun x => ((List.range n).map (wordByte x)).reverse

end Simd.Spec
