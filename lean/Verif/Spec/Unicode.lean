import Verif.Model.Core
/-
Specification of the unicode-simd functions, independent of the model.
-/
namespace Simd.Spec

/-- A Unicode scalar value: any code point that is not a surrogate. -/
def IsScalar (x : BitVec 32) : Prop := x.toNat ≤ 0x10FFFF ∧ ¬ (0xD800 ≤ x.toNat ∧ x.toNat ≤ 0xDFFF)

/-- Byte `k` of a word, counted from the least significant one. -/
def wordByte {w : Nat} (x : BitVec w) (k : Nat) : Byte := BitVec.ofNat 8 (x.toNat / 256 ^ k)

/-- The bytes of a slice of `n`-byte integers in (little-endian) memory order. -/
def wordBytes {w : Nat} (n : Nat) (ws : List (BitVec w)) : List Byte := ws.flatMap fun x => (List.range n).map (wordByte x)

/-- A 16-bit integer with its bytes exchanged. -/
def swap16 (x : BitVec 16) : BitVec 16 := BitVec.ofNat 16 (x.toNat % 256 * 256 + x.toNat / 256)

/-- A 32-bit integer with its bytes in reverse order. -/
def swap32 (x : BitVec 32) : BitVec 32 :=
  BitVec.ofNat 32 (x.toNat % 256 * 2 ^ 24 + x.toNat / 2 ^ 8 % 256 * 2 ^ 16 + x.toNat / 2 ^ 16 % 256 * 2 ^ 8 + x.toNat / 2 ^ 24)

end Simd.Spec
