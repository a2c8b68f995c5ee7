import Verif.Model.Base64
import Verif.Model.Base32
import Verif.Model.HexHeap
/-
`encode_type` and `decode_type`: the trait implementations by which the caller chooses the type of the result.
A conversion between a box of bytes and a box of text (`boxed_str` of crates/vsimd/src/tools.rs:93-96, `into_boxed_bytes`) keeps the allocation;
so does `Vec::from` or `String::from` a box.
-/
namespace Simd

/-- A value that owns its bytes. -/
inductive Owned where
  /-- `Box<[u8]>` -/
  | bytes (s : Slice)
  /-- `Box<str>` -/
  | str (s : Slice)
  /-- `Vec<u8>` -/
  | vec (v : RVec)
  /-- `String` -/
  | string (v : RVec)

/-- The types that implement `FromBase64Encode`, `FromBase32Encode`, `FromHexEncode`. -/
inductive EncodeTy where
  | bytes | str | vec | string
deriving DecidableEq, Repr

/-- The types that implement `FromBase64Decode`, `FromBase32Decode`, `FromHexDecode`. -/
inductive DecodeTy where
  | bytes | vec
deriving DecidableEq, Repr

/-- `Base64::encode_type` (base64-simd lib.rs:295-297) with `from_base64_encode` of the chosen type (heap.rs:122-154). -/
def Base64.encode_type (P : Plat) (i : Option Isa) (config : Config) (data : Slice) : EncodeTy → Prog Owned
  | .bytes => do let ans ← encode_to_boxed_str P i config data; pure (.bytes ans)
  | .str => do let ans ← encode_to_boxed_str P i config data; pure (.str ans)
  | .vec => do let ans ← encode_to_boxed_str P i config data; pure (.vec (.ofBox ans))
  | .string => do let ans ← encode_to_boxed_str P i config data; pure (.string (.ofBox ans))

/-- `Base64::decode_type` (base64-simd lib.rs:304-306) with `from_base64_decode` of the chosen type (heap.rs:105-119). -/
def Base64.decode_type (P : Plat) (i : Option Isa) (config : Config) (data : Slice) : DecodeTy → Prog Owned
  | .bytes => do let ans ← decode_to_boxed_bytes P i config data; pure (.bytes ans)
  | .vec => do let ans ← decode_to_boxed_bytes P i config data; pure (.vec (.ofBox ans))

/-- `Base32::encode_type` (base32-simd lib.rs:247-249) with `from_base32_encode` of the chosen type (heap.rs:118-150). -/
def Base32.encode_type (P : Plat) (w : Bool) (i : Option Isa) (config : Config) (data : Slice) : EncodeTy → Prog Owned
  | .bytes => do let ans ← encode_to_boxed_str P w i config data; pure (.bytes ans)
  | .str => do let ans ← encode_to_boxed_str P w i config data; pure (.str ans)
  | .vec => do let ans ← encode_to_boxed_str P w i config data; pure (.vec (.ofBox ans))
  | .string => do let ans ← encode_to_boxed_str P w i config data; pure (.string (.ofBox ans))

/-- `Base32::decode_type` (base32-simd lib.rs:256-258) with `from_base32_decode` of the chosen type (heap.rs:101-115). -/
def Base32.decode_type (P : Plat) (w : Bool) (i : Option Isa) (config : Config) (data : Slice) : DecodeTy → Prog Owned
  | .bytes => do let ans ← decode_to_boxed_bytes P w i config data; pure (.bytes ans)
  | .vec => do let ans ← decode_to_boxed_bytes P w i config data; pure (.vec (.ofBox ans))

/-- `encode_type` of hex-simd (lib.rs:233-235) with `from_hex_encode` of the chosen type (heap.rs:116-149). -/
def Hex.encode_type (P : Plat) (i : Option Isa) (data : Slice) (case : AsciiCase) : EncodeTy → Prog Owned
  | .bytes => do let ans ← encode_to_boxed_str P i data case; pure (.bytes ans)
  | .str => do let ans ← encode_to_boxed_str P i data case; pure (.str ans)
  | .vec => do let ans ← encode_to_boxed_str P i data case; pure (.vec (.ofBox ans))
  | .string => do let ans ← encode_to_boxed_str P i data case; pure (.string (.ofBox ans))

/-- `decode_type` of hex-simd (lib.rs:242-244) with `from_hex_decode` of the chosen type (heap.rs:98-113). -/
def Hex.decode_type (P : Plat) (i : Option Isa) (data : Slice) : DecodeTy → Prog Owned
  | .bytes => do let ans ← decode_to_boxed_bytes P i data; pure (.bytes ans)
  | .vec => do let ans ← decode_to_boxed_bytes P i data; pure (.vec (.ofBox ans))

end Simd
