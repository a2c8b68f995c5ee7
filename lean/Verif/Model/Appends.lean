import Verif.Model.Base64
import Verif.Model.Base32
import Verif.Model.HexHeap
/-
A client that makes any number of appending calls on one vector. The client is not part of the crates; the calls it makes are.
-/
namespace Simd

/-- One appending call with its implementation and parameters: `encode_append`, `decode_append` of base64-simd (lib.rs:310-321), base32-simd (lib.rs:262-273)
and hex-simd (lib.rs:263-274). -/
inductive AppendCall where
  | base64Encode (i : Option Isa) (config : Base64.Config)
  | base64Decode (i : Option Isa) (config : Base64.Config)
  | base32Encode (w : Bool) (i : Option Isa) (config : Base32.Config)
  | base32Decode (w : Bool) (i : Option Isa) (config : Base32.Config)
  | hexEncode (i : Option Isa) (case : AsciiCase)
  | hexDecode (i : Option Isa)

/-- The call. `extra` is the allocator's over-allocation, should the vector grow. -/
def AppendCall.call (P : Plat) (extra : Nat) (src : Slice) (v : RVec) : AppendCall → Prog (RVec × Except Unit Unit)
  | .base64Encode i config => do pure (← Base64.encode_append P extra i config src v, .ok ())
  | .base64Decode i config => Base64.decode_append P extra i config src v
  | .base32Encode w i config => do pure (← Base32.encode_append P w extra i config src v, .ok ())
  | .base32Decode w i config => Base32.decode_append P w extra i config src v
  | .hexEncode i case => do pure (← Hex.encode_append P extra i src v case, .ok ())
  | .hexDecode i => Hex.decode_append P extra i src v

/-- One step of the client. -/
structure AppendJob where
  call : AppendCall
  src : Slice
  extra : Nat

/-- The client: the calls one after the other on the same vector, whatever the earlier ones report; the reports in order. -/
def appendAll (P : Plat) : List AppendJob → RVec → Prog (RVec × List (Except Unit Unit))
  | [], v => pure (v, [])
  | j :: js, v => do
    let (v, r) ← j.call.call P j.extra j.src v
    let (v, rs) ← appendAll P js v
    pure (v, r :: rs)

end Simd
