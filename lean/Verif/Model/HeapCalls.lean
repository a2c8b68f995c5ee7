import Verif.Model.Calls
import Verif.Model.Owned
/-
The safe functions of the crates that allocate, as one type, with the arguments they borrow.
-/
namespace Simd

/-- A call of a function that allocates its result or appends to a vector, indexed by the type of its result: base64-simd (lib.rs:295-341, forgiving.rs:74-101),
base32-simd (lib.rs:247-293), hex-simd (lib.rs:233-294). `encode_to_string` and `decode_to_vec` are the cases `string` and `vec` of the type asked for.
The implementation the dispatcher chose and the extra capacity the allocator gives are part of the call. -/
inductive HeapCall : Type → Type where
  | base64Encode (i : Option Isa) (config : Base64.Config) (data : Slice) (ty : EncodeTy) : HeapCall Owned
  | base64Decode (i : Option Isa) (config : Base64.Config) (data : Slice) (ty : DecodeTy) : HeapCall Owned
  | base64EncodeAppend (extra : Nat) (i : Option Isa) (config : Base64.Config) (src : Slice) (dst : RVec) : HeapCall RVec
  | base64DecodeAppend (extra : Nat) (i : Option Isa) (config : Base64.Config) (src : Slice) (dst : RVec) : HeapCall (RVec × Except Unit Unit)
  | forgiving (extra : Nat) (fi di : Option Isa) (data : Slice) : HeapCall RVec
  | base32Encode (w : Bool) (i : Option Isa) (config : Base32.Config) (data : Slice) (ty : EncodeTy) : HeapCall Owned
  | base32Decode (w : Bool) (i : Option Isa) (config : Base32.Config) (data : Slice) (ty : DecodeTy) : HeapCall Owned
  | base32EncodeAppend (w : Bool) (extra : Nat) (i : Option Isa) (config : Base32.Config) (src : Slice) (dst : RVec) : HeapCall RVec
  | base32DecodeAppend (w : Bool) (extra : Nat) (i : Option Isa) (config : Base32.Config) (src : Slice) (dst : RVec) : HeapCall (RVec × Except Unit Unit)
  | hexEncode (i : Option Isa) (case : AsciiCase) (data : Slice) (ty : EncodeTy) : HeapCall Owned
  | hexDecode (i : Option Isa) (data : Slice) (ty : DecodeTy) : HeapCall Owned
  | hexEncodeAppend (extra : Nat) (i : Option Isa) (case : AsciiCase) (src : Slice) (dst : RVec) : HeapCall RVec
  | hexDecodeAppend (extra : Nat) (i : Option Isa) (src : Slice) (dst : RVec) : HeapCall (RVec × Except Unit Unit)

namespace HeapCall

/-- The function called. -/
def prog {α : Type} (P : Plat) : HeapCall α → Prog α
  | base64Encode i config data ty => Base64.encode_type P i config data ty
  | base64Decode i config data ty => Base64.decode_type P i config data ty
  | base64EncodeAppend extra i config src dst => Base64.encode_append P extra i config src dst
  | base64DecodeAppend extra i config src dst => Base64.decode_append P extra i config src dst
  | forgiving extra fi di data => Base64.forgiving_decode_to_vec P extra fi di data
  | base32Encode w i config data ty => Base32.encode_type P w i config data ty
  | base32Decode w i config data ty => Base32.decode_type P w i config data ty
  | base32EncodeAppend w extra i config src dst => Base32.encode_append P w extra i config src dst
  | base32DecodeAppend w extra i config src dst => Base32.decode_append P w extra i config src dst
  | hexEncode i case data ty => Hex.encode_type P i data case ty
  | hexDecode i data ty => Hex.decode_type P i data ty
  | hexEncodeAppend extra i case src dst => Hex.encode_append P extra i src dst case
  | hexDecodeAppend extra i src dst => Hex.decode_append P extra i src dst

/-- What the call borrows with `&`. -/
def shared {α : Type} : HeapCall α → Slice
  | base64Encode _ _ data _ | base64Decode _ _ data _ | forgiving _ _ _ data | base32Encode _ _ _ data _ | base32Decode _ _ _ data _ | hexEncode _ _ data _ | hexDecode _ data _ => data
  | base64EncodeAppend _ _ _ src _ | base64DecodeAppend _ _ _ src _ | base32EncodeAppend _ _ _ _ src _ | base32DecodeAppend _ _ _ _ src _
  | hexEncodeAppend _ _ _ src _ | hexDecodeAppend _ _ src _ => src

/-- The vector the call borrows with `&mut`. -/
def vec {α : Type} : HeapCall α → Option RVec
  | base64Encode .. | base64Decode .. | forgiving .. | base32Encode .. | base32Decode .. | hexEncode .. | hexDecode .. => none
  | base64EncodeAppend _ _ _ _ dst | base64DecodeAppend _ _ _ _ dst | base32EncodeAppend _ _ _ _ _ dst | base32DecodeAppend _ _ _ _ _ dst
  | hexEncodeAppend _ _ _ _ dst | hexDecodeAppend _ _ _ dst => some dst

end HeapCall

/-- Any call. -/
abbrev AnyCall (α : Type) : Type := Call α ⊕ HeapCall α

/-- The function called. -/
def AnyCall.prog {α : Type} (P : Plat) : AnyCall α → Prog α
  | .inl c => c.prog P
  | .inr c => c.prog P

end Simd
