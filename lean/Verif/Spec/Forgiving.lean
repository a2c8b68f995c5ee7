import Verif.Spec.Rfc4648
/-
The WHATWG Infra standard: "ASCII whitespace" and "forgiving-base64 decode"
(https://infra.spec.whatwg.org/#forgiving-base64-decode).
-/
namespace Simd.Spec

/-- ASCII whitespace: TAB, LF, FF, CR, SPACE. -/
def isWs (c : BitVec 8) : Bool := c ∈ [0x09#8, 0x0a#8, 0x0c#8, 0x0d#8, 0x20#8]

/-- Step 1: remove all ASCII whitespace. -/
def stripWs (xs : List (BitVec 8)) : List (BitVec 8) := xs.filter fun c => !isWs c

/-- Step 2: if the length is a multiple of 4, one or two trailing `=` are removed. -/
def stripPad (xs : List (BitVec 8)) : List (BitVec 8) :=
  if xs.length % 4 = 0 then
    if [0x3d#8, 0x3d#8] <:+ xs then xs.take (xs.length - 2)
    else if [0x3d#8] <:+ xs then xs.take (xs.length - 1)
    else xs
  else xs

/-- The position of a character in Table 1 of RFC 4648, if it is there. -/
def base64Value (c : BitVec 8) : Option Nat := (List.range 64).find? fun v => base64Char false v == c

/-- The six bits of a value, most significant first. -/
def sixBits (v : Nat) : List Bool := (List.range 6).map fun i => v.testBit (5 - i)

/-- The bytes of a bit string, incomplete last bytes dropped. -/
def bytesOfBits (bits : List Bool) : List (BitVec 8) :=
  (List.range (bits.length / 8)).map fun j => BitVec.ofNat 8 (group 8 bits j)

/-- Steps 3 to 10: fail if the length leaves remainder 1 modulo 4 or a character is not in the alphabet,
otherwise concatenate the six-bit values and cut them into bytes. -/
def decodeBits (xs : List (BitVec 8)) : Option (List (BitVec 8)) :=
  if xs.length % 4 = 1 then none
  else (xs.mapM base64Value).map fun vs => bytesOfBits (vs.flatMap sixBits)

/-- forgiving-base64 decode. -/
def forgivingDecode (xs : List (BitVec 8)) : Option (List (BitVec 8)) := decodeBits (stripPad (stripWs xs))

end Simd.Spec
