import Verif.Spec.Hex
/-
Textual forms of a UUID (RFC 9562, section 4, and the Microsoft and URN variants), written without reference to the implementation.
-/
namespace Simd.Spec

/-- Simple form: 32 digits. -/
def uuidSimple (upper : Bool) (u : List (BitVec 8)) : List (BitVec 8) := hexEncode upper u

/-- Hyphenated form: the digits of 4, 2, 2, 2 and 6 bytes, separated by hyphens. -/
def uuidHyphenated (upper : Bool) (u : List (BitVec 8)) : List (BitVec 8) :=
  hexEncode upper (u.take 4) ++ [0x2d#8] ++ hexEncode upper ((u.drop 4).take 2) ++ [0x2d#8] ++ hexEncode upper ((u.drop 6).take 2) ++ [0x2d#8] ++
    hexEncode upper ((u.drop 8).take 2) ++ [0x2d#8] ++ hexEncode upper (u.drop 10)

/-- ASCII text as bytes. -/
def ascii (s : String) : List (BitVec 8) := s.toList.map fun c => BitVec.ofNat 8 c.toNat

/-- `text` is the simple form of `u`, in any mixture of cases. -/
def IsUuidSimple (text u : List (BitVec 8)) : Prop := u.length = 16 ∧ text.map toLower = uuidSimple false u
/-- `text` is the hyphenated form of `u`, in any mixture of cases. -/
def IsUuidHyphenated (text u : List (BitVec 8)) : Prop := u.length = 16 ∧ text.map toLower = uuidHyphenated false u

/-- `text` is one of the four accepted forms of `u`. -/
def IsUuid (text u : List (BitVec 8)) : Prop :=
  IsUuidSimple text u ∨ IsUuidHyphenated text u ∨ (∃ t, text = ascii "{" ++ t ++ ascii "}" ∧ IsUuidHyphenated t u) ∨
    ∃ t, text = ascii "urn:uuid:" ++ t ∧ IsUuidHyphenated t u

end Simd.Spec
