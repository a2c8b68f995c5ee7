import Verif.Spec.Hex
import Verif.Spec.Rfc4648
/-
The text formats of the crates, and what an appending call adds to a vector. Independent of the model.
-/
namespace Simd.Spec

/-- A text format: the base64 and base32 variants, and hexadecimal in one of the cases. -/
inductive Format where
  | base64 (url pad : Bool)
  | base32 (ext pad : Bool)
  | hex (upper : Bool)
deriving DecidableEq, Repr

/-- The text of some bytes. -/
def Format.text : Format → List (BitVec 8) → List (BitVec 8)
  | .base64 url pad, xs => Spec.base64 url pad xs
  | .base32 ext pad, xs => Spec.base32 ext pad xs
  | .hex upper, xs => hexEncode upper xs

/-- `t` is a text of the bytes `ys`. Hexadecimal digits may be of either case when decoding. -/
def Format.IsTextOf : Format → List (BitVec 8) → List (BitVec 8) → Prop
  | .hex _, t, ys => IsHexOf t ys
  | f, t, ys => f.text ys = t

/-- Encoding to a format or decoding from it. -/
inductive Op where
  | encode (f : Format)
  | decode (f : Format)
deriving DecidableEq, Repr

/-- What one appending call reports, and the bytes it adds to the vector: an encoder adds the text; a decoder adds the bytes of the text,
and if there are none it reports an error and adds nothing. -/
def Op.Appends (xs : List (BitVec 8)) : Op → Except Unit Unit → List (BitVec 8) → Prop
  | .encode f, .ok _, ys => ys = f.text xs
  | .encode _, .error _, _ => False
  | .decode f, .ok _, ys => f.IsTextOf xs ys
  | .decode f, .error _, ys => (¬ ∃ zs, f.IsTextOf xs zs) ∧ ys = []

/-- The most bytes one appending call can need. -/
def Op.bound (xs : List (BitVec 8)) : Op → Nat
  | .encode f => (f.text xs).length
  | .decode _ => xs.length

end Simd.Spec
