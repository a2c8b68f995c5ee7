/-
RFC 4648, sections 3 to 7: base encodings as functions on bit strings. Independent of the model.
-/
namespace Simd.Spec

/-- The bits of a byte, most significant first. -/
def byteBits (b : BitVec 8) : List Bool :=
  [b.getLsbD 7, b.getLsbD 6, b.getLsbD 5, b.getLsbD 4, b.getLsbD 3, b.getLsbD 2, b.getLsbD 1, b.getLsbD 0]

/-- A byte sequence as a bit string. -/
def bitString (bs : List (BitVec 8)) : List Bool := bs.flatMap byteBits

/-- The number written by a bit string, most significant bit first. -/
def natOfBits (l : List Bool) : Nat := l.foldl (fun a b => 2 * a + b.toNat) 0

/-- The `j`-th group of `k` bits, filled with zeros behind the end of the string. -/
def group (k : Nat) (bits : List Bool) (j : Nat) : Nat :=
  natOfBits ((List.range k).map fun i => bits.getD (k * j + i) false)

/-- The characters of an encoding without padding: one for each (possibly incomplete) group of `k` bits. -/
def baseText (k : Nat) (char : Nat → BitVec 8) (bs : List (BitVec 8)) : List (BitVec 8) :=
  (List.range ((8 * bs.length + k - 1) / k)).map fun j => char (group k (bitString bs) j)

/-- Fill with '=' to a multiple of `q` characters. -/
def padTo (q : Nat) (l : List (BitVec 8)) : List (BitVec 8) :=
  l ++ List.replicate ((q - l.length % q) % q) 0x3d#8

/-- The base64 alphabets (RFC 4648, tables 1 and 2). -/
def base64Char (url : Bool) (v : Nat) : BitVec 8 :=
  if v < 26 then BitVec.ofNat 8 ('A'.toNat + v)
  else if v < 52 then BitVec.ofNat 8 ('a'.toNat + (v - 26))
  else if v < 62 then BitVec.ofNat 8 ('0'.toNat + (v - 52))
  else if v = 62 then BitVec.ofNat 8 (if url then '-'.toNat else '+'.toNat)
  else BitVec.ofNat 8 (if url then '_'.toNat else '/'.toNat)

/-- Base64 encoding (RFC 4648, sections 4 and 5). -/
def base64 (url pad : Bool) (bs : List (BitVec 8)) : List (BitVec 8) :=
  if pad then padTo 4 (baseText 6 (base64Char url) bs) else baseText 6 (base64Char url) bs

/-- The base32 alphabets (RFC 4648, tables 3 and 4). -/
def base32Char (hex : Bool) (v : Nat) : BitVec 8 :=
  if hex then
    if v < 10 then BitVec.ofNat 8 ('0'.toNat + v) else BitVec.ofNat 8 ('A'.toNat + (v - 10))
  else
    if v < 26 then BitVec.ofNat 8 ('A'.toNat + v) else BitVec.ofNat 8 ('2'.toNat + (v - 26))

/-- Base32 encoding (RFC 4648, sections 6 and 7). -/
def base32 (hex pad : Bool) (bs : List (BitVec 8)) : List (BitVec 8) :=
  if pad then padTo 8 (baseText 5 (base32Char hex) bs) else baseText 5 (base32Char hex) bs

end Simd.Spec
