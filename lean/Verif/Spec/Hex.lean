/-
What hexadecimal text means, written without reference to the implementation.
-/
namespace Simd.Spec

/-- The hexadecimal digit of `n < 16`. -/
def hexDigit (upper : Bool) (n : Nat) : BitVec 8 :=
  if n < 10 then BitVec.ofNat 8 (0x30 + n)
  else if upper then BitVec.ofNat 8 (0x41 + (n - 10)) else BitVec.ofNat 8 (0x61 + (n - 10))

/-- Hexadecimal text of a byte string: for each byte, high nibble then low nibble. -/
def hexEncode (upper : Bool) (bs : List (BitVec 8)) : List (BitVec 8) :=
  bs.flatMap fun b => [hexDigit upper (b.toNat / 16), hexDigit upper (b.toNat % 16)]

/-- ASCII lower case. -/
def toLower (c : BitVec 8) : BitVec 8 :=
  if 0x41 ≤ c.toNat ∧ c.toNat ≤ 0x5a then c + 0x20#8 else c

/-- `0`-`9`, `a`-`f` or `A`-`F`. -/
def isHexDigit (c : BitVec 8) : Prop :=
  (0x30 ≤ c.toNat ∧ c.toNat ≤ 0x39) ∨ (0x61 ≤ c.toNat ∧ c.toNat ≤ 0x66) ∨ (0x41 ≤ c.toNat ∧ c.toNat ≤ 0x46)

instance : DecidablePred isHexDigit := fun c => by unfold isHexDigit; infer_instance

/-- `text` is hexadecimal text, in any mixture of cases, for `bs`. -/
def IsHexOf (text bs : List (BitVec 8)) : Prop := text.map toLower = hexEncode false bs

end Simd.Spec
