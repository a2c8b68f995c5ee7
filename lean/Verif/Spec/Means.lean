import Verif.Model.HeapCalls
import Verif.Props.Base64
import Verif.Props.Base32
import Verif.Props.Owned
import Verif.Spec.Forgiving
import Verif.Spec.Hex
/-
What the functions that allocate compute from the bytes they are given, in one definition: no memory, no implementations, no capacities.
-/
namespace Simd.Spec

/-- The inverse of an encoding: `none` for what is not the encoding of anything. -/
def Inverse (enc : List Byte → List Byte) (xs : List Byte) : Option (List Byte) → Prop
  | some ys => enc ys = xs
  | none => ¬ ∃ ys, enc ys = xs

/-- Hexadecimal digits of either case, decoded. -/
def FromHex (xs : List Byte) : Option (List Byte) → Prop
  | some ys => IsHexOf xs ys
  | none => ¬ ∃ ys, IsHexOf xs ys

/-- What a call computes from the bytes `xs`: bytes, or an error. -/
def HeapMeans {α : Type} (xs : List Byte) (res : Option (List Byte)) : HeapCall α → Prop
  | .base64Encode _ config _ _ | .base64EncodeAppend _ _ config _ _ => ∃ url pad, Base64.IsVariant config url pad ∧ res = some (base64 url pad xs)
  | .base64Decode _ config _ _ | .base64DecodeAppend _ _ config _ _ => ∃ url pad, Base64.IsVariant config url pad ∧ Inverse (base64 url pad) xs res
  | .forgiving .. => res = forgivingDecode xs
  | .base32Encode _ _ config _ _ | .base32EncodeAppend _ _ _ config _ _ => ∃ hex pad, Base32.IsVariant config hex pad ∧ res = some (base32 hex pad xs)
  | .base32Decode _ _ config _ _ | .base32DecodeAppend _ _ _ config _ _ => ∃ hex pad, Base32.IsVariant config hex pad ∧ Inverse (base32 hex pad) xs res
  | .hexEncode _ case _ _ | .hexEncodeAppend _ _ case _ _ => res = some (hexEncode (case == .upper) xs)
  | .hexDecode .. | .hexDecodeAppend .. => FromHex xs res

/-- The type of a new result is the one asked for. -/
def HeapTy {α : Type} (o : Owned) : HeapCall α → Prop
  | .base64Encode _ _ _ ty | .base32Encode _ _ _ _ ty | .hexEncode _ _ _ ty => o.HasTy ty
  | .base64Decode _ _ _ ty | .base32Decode _ _ _ _ ty | .hexDecode _ _ ty => o.HasTy ty.ty
  | .forgiving .. => o.HasTy .vec
  | _ => True

/-- The call gives back the vector, with an error. -/
def Failed : {α : Type} → HeapCall α → α → Prop
  | _, .base64DecodeAppend .., r | _, .base32DecodeAppend .., r | _, .hexDecodeAppend .., r => r.2 = .error ()
  | _, _, _ => False

end Simd.Spec
