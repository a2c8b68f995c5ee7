import Verif.Spec.Hex
import Verif.Spec.Rfc4648
/-
How the texts of the variants of an encoding are related. Independent of the model.
-/
namespace Simd.Spec

/-- Without the padding character. -/
def noPad (t : List (BitVec 8)) : List (BitVec 8) := t.filter fun c => c != 0x3d#8

/-- `+` becomes `-`, `/` becomes `_` (RFC 4648, section 5). -/
def toUrlSafe (c : BitVec 8) : BitVec 8 := if c = 0x2b#8 then 0x2d#8 else if c = 0x2f#8 then 0x5f#8 else c

/-- The character of the "extended hex" base32 alphabet at the place of a character of the usual one: the 32 digits in a row, `=` stays. -/
def toBase32Hex (c : BitVec 8) : BitVec 8 :=
  if 0x41 ≤ c.toNat ∧ c.toNat ≤ 0x4a then c - 0x11#8
  else if 0x4b ≤ c.toNat ∧ c.toNat ≤ 0x5a then c - 0x0a#8
  else if 0x32 ≤ c.toNat ∧ c.toNat ≤ 0x37 then c + 0x1f#8
  else c

/-- ASCII upper case. -/
def toUpper (c : BitVec 8) : BitVec 8 := if 0x61 ≤ c.toNat ∧ c.toNat ≤ 0x7a then c - 0x20#8 else c

/-- Without hyphens. -/
def noHyphens (t : List (BitVec 8)) : List (BitVec 8) := t.filter fun c => c != 0x2d#8

end Simd.Spec
