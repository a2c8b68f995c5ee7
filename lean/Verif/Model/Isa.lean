import Verif.Model.Vec
/-
Instruction sets (crates/vsimd/src/isa.rs).
-/
namespace Simd

/-- The instruction-set type `S` of a SIMD instantiation together with the architecture it is compiled for:
SSE2, SSSE3, SSE41, AVX2 on x86/x86_64, NEON on arm (feature `unstable`) and on aarch64, WASM128 on wasm32
(isa.rs:149-305). `Fallback` is represented by `none : Option Isa` where it occurs. -/
inductive Isa where
  | sse2 | ssse3 | sse41 | avx2 | neon32 | neon64 | wasm128
deriving DecidableEq, Repr

/-- The instruction-set names that occur in `matches_isa!`. -/
inductive IsaId where
  | SSE2 | SSSE3 | SSE41 | AVX2 | NEON | WASM128
deriving DecidableEq, Repr

open IsaId in
/-- `matches_isa!(S, U)` for a single `U`: `matches_isa_impl` (isa.rs:32-54) with the constants `ID` and `ARCH` of
isa.rs:80-283. `S::ARCH && U::ARCH` holds exactly for instruction sets of the same architecture. -/
def Isa.is : Isa → IsaId → Bool
  | .sse2, SSE2 => true
  | .ssse3, SSE2 | .ssse3, SSSE3 => true
  | .sse41, SSE2 | .sse41, SSSE3 | .sse41, SSE41 => true
  | .avx2, SSE2 | .avx2, SSSE3 | .avx2, SSE41 | .avx2, AVX2 => true
  | .neon32, NEON | .neon64, NEON => true
  | .wasm128, WASM128 => true
  | _, _ => false

/-- `cfg!(target_arch = "arm")`. -/
def Isa.arm : Isa → Bool | .neon32 => true | _ => false
/-- `cfg!(target_arch = "aarch64")`. -/
def Isa.aarch64 : Isa → Bool | .neon64 => true | _ => false

end Simd
