import Verif.Lemmas.UnifiedOps
/-
C54: which methods of the vsimd traits are implemented on which instruction set. Every method of `SIMD128` documents the instruction sets
it supports in two lists, `T1` (one instruction) and `T2` (several); the other sets panic. The memory operations are left out (they are
programs, not functions of vectors); they have a branch for every instruction set.
-/
namespace Simd
namespace Vsimd
open Vs

/-- The names used in the doc comments. -/
inductive Req where
  | sse2 | ssse3 | sse41 | neon | neonA32 | neonA64 | wasm128
deriving DecidableEq, Repr

/-- Which CPUs satisfy a requirement: each x86 level contains the earlier ones; A32 is arm, A64 is aarch64. -/
def Req.met : Req → Isa → Bool
  | .sse2, s => s == .sse2 || s == .ssse3 || s == .sse41 || s == .avx2
  | .ssse3, s => s == .ssse3 || s == .sse41 || s == .avx2
  | .sse41, s => s == .sse41 || s == .avx2
  | .neon, s => s == .neon32 || s == .neon64
  | .neonA32, s => s == .neon32
  | .neonA64, s => s == .neon64
  | .wasm128, s => s == .wasm128

/-- Some arguments for a call. -/
structure Args (n : Nat) where
  (a b c : Vec n)
  (x : BitVec 64)
  (k : Nat)

/-- The methods of `SIMD128` on vectors (simd128.rs:127-1228). -/
inductive M128 where
  | v128_create_zero | v128_not | v128_and | v128_or | v128_xor | v128_andnot | v128_all_zero | u8x16_splat | u16x8_splat 
  | u32x4_splat | u64x2_splat | i8x16_splat | i16x8_splat | i32x4_splat | i64x2_splat | u8x16_add | u16x8_add | u32x4_add 
  | u64x2_add | u8x16_sub | u16x8_sub | u32x4_sub | u64x2_sub | u8x16_sub_sat | u16x8_sub_sat | i8x16_sub_sat | i16x8_sub_sat 
  | i16x8_mul_lo | i32x4_mul_lo | u16x8_shl | u32x4_shl | u16x8_shr | u32x4_shr | u8x16_eq | u16x8_eq | u32x4_eq | u8x16_lt 
  | u16x8_lt | u32x4_lt | i8x16_lt | i16x8_lt | i32x4_lt | u8x16_max | u16x8_max | u32x4_max | i8x16_max | i16x8_max | i32x4_max 
  | u8x16_min | u16x8_min | u32x4_min | i8x16_min | i16x8_min | i32x4_min | u8x16_swizzle | u16x8_bswap | u32x4_bswap | u64x2_bswap 
  | u8x16_any_zero | u8x16_bitmask | u8x16_reduce_max | u8x16_reduce_min | v128_bsl | u8x16_zip_lo | u8x16_zip_hi | u16x8_zip_lo 
  | u16x8_zip_hi | u32x4_zip_lo | u32x4_zip_hi | u64x2_zip_lo | u64x2_zip_hi | u8x16_unzip_even | u8x16_unzip_odd | u16x8_mul_hi 
  | i16x8_mul_hi | i16x8_maddubs | u16x8_blend | u8x16_blendv | i16x8_madd | u8x16_avgr | i8x16_add_sat | u8x16_add_sat | i16x8_packus
deriving DecidableEq, Repr

/-- The documented instruction sets, `T1` and `T2` together, transcribed from the doc comment above each method (simd128.rs). -/
def M128.doc : M128 → List Req
  | .v128_create_zero | .v128_and | .v128_or | .v128_xor | .v128_andnot | .u8x16_splat | .u16x8_splat | .u32x4_splat | .u64x2_splat
  | .i8x16_splat | .i16x8_splat | .i32x4_splat | .i64x2_splat | .u8x16_add | .u16x8_add | .u32x4_add | .u64x2_add | .u8x16_sub
  | .u16x8_sub | .u32x4_sub | .u64x2_sub | .u8x16_sub_sat | .u16x8_sub_sat | .i8x16_sub_sat | .i16x8_sub_sat | .i16x8_mul_lo
  | .u16x8_shl | .u32x4_shl | .u16x8_shr | .u32x4_shr | .u8x16_eq | .u16x8_eq | .u32x4_eq | .i8x16_lt | .i16x8_lt | .i32x4_lt
  | .u8x16_max | .i16x8_max | .u8x16_min | .i16x8_min | .u8x16_zip_lo | .u8x16_zip_hi | .u16x8_zip_lo | .u16x8_zip_hi | .u32x4_zip_lo
  | .u32x4_zip_hi | .u64x2_zip_lo | .u64x2_zip_hi | .u8x16_avgr | .i8x16_add_sat | .u8x16_add_sat => [.sse2, .neon, .wasm128]
  | .v128_not | .u8x16_lt | .u16x8_lt | .u32x4_lt => [.neon, .wasm128, .sse2]
  | .v128_all_zero => [.sse41, .neonA64, .wasm128, .neonA32]
  | .i32x4_mul_lo | .u16x8_max | .u32x4_max | .i8x16_max | .i32x4_max | .u16x8_min | .u32x4_min | .i8x16_min | .i32x4_min
  | .u16x8_bswap | .u32x4_bswap | .u64x2_bswap => [.sse41, .neon, .wasm128]
  | .u8x16_swizzle => [.ssse3, .neonA64, .wasm128, .neonA32]
  | .u8x16_any_zero => [.neonA64, .wasm128, .sse2, .neonA32]
  | .u8x16_bitmask => [.sse2, .wasm128]
  | .u8x16_reduce_max | .u8x16_reduce_min => [.neonA64]
  | .v128_bsl => [.neon, .sse2, .wasm128]
  | .u8x16_unzip_even | .u8x16_unzip_odd => [.neon, .wasm128]
  | .u16x8_mul_hi | .i16x8_mul_hi | .i16x8_madd | .i16x8_packus => [.sse2]
  | .i16x8_maddubs => [.ssse3]
  | .u16x8_blend | .u8x16_blendv => [.sse41]

/-- Whether the call returns (`none` is a panic). -/
def M128.works (m : M128) (s : Isa) (v : Args 16) : Bool :=
  match m with
  | .v128_create_zero => (Vs.v128_create_zero s).isSome
  | .v128_not => (Vs.v128_not s v.a).isSome
  | .v128_and => (Vs.v128_and s v.a v.b).isSome
  | .v128_or => (Vs.v128_or s v.a v.b).isSome
  | .v128_xor => (Vs.v128_xor s v.a v.b).isSome
  | .v128_andnot => (Vs.v128_andnot s v.a v.b).isSome
  | .v128_all_zero => (Vs.v128_all_zero s v.a).isSome
  | .u8x16_splat => (Vs.u8x16_splat s (v.x.setWidth 8)).isSome
  | .u16x8_splat => (Vs.u16x8_splat s (v.x.setWidth 16)).isSome
  | .u32x4_splat => (Vs.u32x4_splat s (v.x.setWidth 32)).isSome
  | .u64x2_splat => (Vs.u64x2_splat s (v.x.setWidth 64)).isSome
  | .i8x16_splat => (Vs.i8x16_splat s (v.x.setWidth 8)).isSome
  | .i16x8_splat => (Vs.i16x8_splat s (v.x.setWidth 16)).isSome
  | .i32x4_splat => (Vs.i32x4_splat s (v.x.setWidth 32)).isSome
  | .i64x2_splat => (Vs.i64x2_splat s (v.x.setWidth 64)).isSome
  | .u8x16_add => (Vs.u8x16_add s v.a v.b).isSome
  | .u16x8_add => (Vs.u16x8_add s v.a v.b).isSome
  | .u32x4_add => (Vs.u32x4_add s v.a v.b).isSome
  | .u64x2_add => (Vs.u64x2_add s v.a v.b).isSome
  | .u8x16_sub => (Vs.u8x16_sub s v.a v.b).isSome
  | .u16x8_sub => (Vs.u16x8_sub s v.a v.b).isSome
  | .u32x4_sub => (Vs.u32x4_sub s v.a v.b).isSome
  | .u64x2_sub => (Vs.u64x2_sub s v.a v.b).isSome
  | .u8x16_sub_sat => (Vs.u8x16_sub_sat s v.a v.b).isSome
  | .u16x8_sub_sat => (Vs.u16x8_sub_sat s v.a v.b).isSome
  | .i8x16_sub_sat => (Vs.i8x16_sub_sat s v.a v.b).isSome
  | .i16x8_sub_sat => (Vs.i16x8_sub_sat s v.a v.b).isSome
  | .i16x8_mul_lo => (Vs.i16x8_mul_lo s v.a v.b).isSome
  | .i32x4_mul_lo => (Vs.i32x4_mul_lo s v.a v.b).isSome
  | .u16x8_shl => (Vs.u16x8_shl s v.k v.a).isSome
  | .u32x4_shl => (Vs.u32x4_shl s v.k v.a).isSome
  | .u16x8_shr => (Vs.u16x8_shr s v.k v.a).isSome
  | .u32x4_shr => (Vs.u32x4_shr s v.k v.a).isSome
  | .u8x16_eq => (Vs.u8x16_eq s v.a v.b).isSome
  | .u16x8_eq => (Vs.u16x8_eq s v.a v.b).isSome
  | .u32x4_eq => (Vs.u32x4_eq s v.a v.b).isSome
  | .u8x16_lt => (Vs.u8x16_lt s v.a v.b).isSome
  | .u16x8_lt => (Vs.u16x8_lt s v.a v.b).isSome
  | .u32x4_lt => (Vs.u32x4_lt s v.a v.b).isSome
  | .i8x16_lt => (Vs.i8x16_lt s v.a v.b).isSome
  | .i16x8_lt => (Vs.i16x8_lt s v.a v.b).isSome
  | .i32x4_lt => (Vs.i32x4_lt s v.a v.b).isSome
  | .u8x16_max => (Vs.u8x16_max s v.a v.b).isSome
  | .u16x8_max => (Vs.u16x8_max s v.a v.b).isSome
  | .u32x4_max => (Vs.u32x4_max s v.a v.b).isSome
  | .i8x16_max => (Vs.i8x16_max s v.a v.b).isSome
  | .i16x8_max => (Vs.i16x8_max s v.a v.b).isSome
  | .i32x4_max => (Vs.i32x4_max s v.a v.b).isSome
  | .u8x16_min => (Vs.u8x16_min s v.a v.b).isSome
  | .u16x8_min => (Vs.u16x8_min s v.a v.b).isSome
  | .u32x4_min => (Vs.u32x4_min s v.a v.b).isSome
  | .i8x16_min => (Vs.i8x16_min s v.a v.b).isSome
  | .i16x8_min => (Vs.i16x8_min s v.a v.b).isSome
  | .i32x4_min => (Vs.i32x4_min s v.a v.b).isSome
  | .u8x16_swizzle => (Vs.u8x16_swizzle s v.a v.b).isSome
  | .u16x8_bswap => (Vs.u16x8_bswap s v.a).isSome
  | .u32x4_bswap => (Vs.u32x4_bswap s v.a).isSome
  | .u64x2_bswap => (Vs.u64x2_bswap s v.a).isSome
  | .u8x16_any_zero => (Vs.u8x16_any_zero s v.a).isSome
  | .u8x16_bitmask => (Vs.u8x16_bitmask s v.a).isSome
  | .u8x16_reduce_max => (Vs.u8x16_reduce_max s v.a).isSome
  | .u8x16_reduce_min => (Vs.u8x16_reduce_min s v.a).isSome
  | .v128_bsl => (Vs.v128_bsl s v.a v.b v.c).isSome
  | .u8x16_zip_lo => (Vs.u8x16_zip_lo s v.a v.b).isSome
  | .u8x16_zip_hi => (Vs.u8x16_zip_hi s v.a v.b).isSome
  | .u16x8_zip_lo => (Vs.u16x8_zip_lo s v.a v.b).isSome
  | .u16x8_zip_hi => (Vs.u16x8_zip_hi s v.a v.b).isSome
  | .u32x4_zip_lo => (Vs.u32x4_zip_lo s v.a v.b).isSome
  | .u32x4_zip_hi => (Vs.u32x4_zip_hi s v.a v.b).isSome
  | .u64x2_zip_lo => (Vs.u64x2_zip_lo s v.a v.b).isSome
  | .u64x2_zip_hi => (Vs.u64x2_zip_hi s v.a v.b).isSome
  | .u8x16_unzip_even => (Vs.u8x16_unzip_even s v.a v.b).isSome
  | .u8x16_unzip_odd => (Vs.u8x16_unzip_odd s v.a v.b).isSome
  | .u16x8_mul_hi => (Vs.u16x8_mul_hi s v.a v.b).isSome
  | .i16x8_mul_hi => (Vs.i16x8_mul_hi s v.a v.b).isSome
  | .i16x8_maddubs => (Vs.i16x8_maddubs s v.a v.b).isSome
  | .u16x8_blend => (Vs.u16x8_blend s v.k v.a v.b).isSome
  | .u8x16_blendv => (Vs.u8x16_blendv s v.a v.b v.c).isSome
  | .i16x8_madd => (Vs.i16x8_madd s v.a v.b).isSome
  | .u8x16_avgr => (Vs.u8x16_avgr s v.a v.b).isSome
  | .i8x16_add_sat => (Vs.i8x16_add_sat s v.a v.b).isSome
  | .u8x16_add_sat => (Vs.u8x16_add_sat s v.a v.b).isSome
  | .i16x8_packus => (Vs.i16x8_packus s v.a v.b).isSome

/-- C54: every method of `SIMD128` is implemented on exactly the instruction sets its documentation lists. -/
theorem C54_documented (m : M128) (s : Isa) (v : Args 16) : m.works s v = m.doc.any (·.met s) := by
  cases m <;> cases s <;> rfl

example : M128.doc .u8x16_swizzle = [.ssse3, .neonA64, .wasm128, .neonA32] ∧ (M128.doc .u8x16_swizzle).any (·.met .sse2) = false := ⟨rfl, rfl⟩

/-- The methods of `SIMD256` on vectors (simd256.rs:131-900). -/
inductive M256 where
  | v256_create_zero | v256_not | v256_and | v256_or | v256_xor | v256_andnot | v256_all_zero | u8x32_splat | u16x16_splat 
  | u32x8_splat | u64x4_splat | i8x32_splat | i16x16_splat | i32x8_splat | i64x4_splat | u8x32_add | u16x16_add | u32x8_add 
  | u64x4_add | u8x32_sub | u16x16_sub | u32x8_sub | u64x4_sub | u8x32_sub_sat | u16x16_sub_sat | i8x32_sub_sat | i16x16_sub_sat 
  | i16x16_mul_lo | i32x8_mul_lo | u16x16_shl | u32x8_shl | u16x16_shr | u32x8_shr | u8x32_eq | u16x16_eq | u32x8_eq | u8x32_lt 
  | u16x16_lt | u32x8_lt | i8x32_lt | i16x16_lt | i32x8_lt | u8x32_max | u16x16_max | u32x8_max | i8x32_max | i16x16_max 
  | i32x8_max | u8x32_min | u16x16_min | u32x8_min | i8x32_min | i16x16_min | i32x8_min | u8x16x2_swizzle | u16x16_bswap 
  | u32x8_bswap | u64x4_bswap | u8x32_swizzle | u8x32_any_zero | u8x32_bitmask | u8x32_reduce_max | u8x32_reduce_min | v256_bsl 
  | u16x16_from_u8x16 | u8x16x2_zip_lo | u8x16x2_zip_hi | u16x8x2_zip_lo | u16x8x2_zip_hi | u32x4x2_zip_lo | u32x4x2_zip_hi 
  | u64x2x2_zip_lo | u64x2x2_zip_hi | v128x2_zip_lo | v128x2_zip_hi | u64x4_permute | u8x32_unzip_even | u8x32_unzip_odd 
  | u64x4_unzip_even | u64x4_unzip_odd | u16x16_mul_hi | i16x16_mul_hi | i16x16_maddubs | u32x8_blend | u8x32_blendv | i16x16_madd 
  | u8x32_avgr | i8x32_add_sat | u8x32_add_sat
deriving DecidableEq, Repr

/-- Whether the call returns. -/
def M256.works (m : M256) (s : Isa) (v : Args 32) : Bool :=
  match m with
  | .v256_create_zero => (Vs.v256_create_zero s).isSome
  | .v256_not => (Vs.v256_not s v.a).isSome
  | .v256_and => (Vs.v256_and s v.a v.b).isSome
  | .v256_or => (Vs.v256_or s v.a v.b).isSome
  | .v256_xor => (Vs.v256_xor s v.a v.b).isSome
  | .v256_andnot => (Vs.v256_andnot s v.a v.b).isSome
  | .v256_all_zero => (Vs.v256_all_zero s v.a).isSome
  | .u8x32_splat => (Vs.u8x32_splat s (v.x.setWidth 8)).isSome
  | .u16x16_splat => (Vs.u16x16_splat s (v.x.setWidth 16)).isSome
  | .u32x8_splat => (Vs.u32x8_splat s (v.x.setWidth 32)).isSome
  | .u64x4_splat => (Vs.u64x4_splat s (v.x.setWidth 64)).isSome
  | .i8x32_splat => (Vs.i8x32_splat s (v.x.setWidth 8)).isSome
  | .i16x16_splat => (Vs.i16x16_splat s (v.x.setWidth 16)).isSome
  | .i32x8_splat => (Vs.i32x8_splat s (v.x.setWidth 32)).isSome
  | .i64x4_splat => (Vs.i64x4_splat s (v.x.setWidth 64)).isSome
  | .u8x32_add => (Vs.u8x32_add s v.a v.b).isSome
  | .u16x16_add => (Vs.u16x16_add s v.a v.b).isSome
  | .u32x8_add => (Vs.u32x8_add s v.a v.b).isSome
  | .u64x4_add => (Vs.u64x4_add s v.a v.b).isSome
  | .u8x32_sub => (Vs.u8x32_sub s v.a v.b).isSome
  | .u16x16_sub => (Vs.u16x16_sub s v.a v.b).isSome
  | .u32x8_sub => (Vs.u32x8_sub s v.a v.b).isSome
  | .u64x4_sub => (Vs.u64x4_sub s v.a v.b).isSome
  | .u8x32_sub_sat => (Vs.u8x32_sub_sat s v.a v.b).isSome
  | .u16x16_sub_sat => (Vs.u16x16_sub_sat s v.a v.b).isSome
  | .i8x32_sub_sat => (Vs.i8x32_sub_sat s v.a v.b).isSome
  | .i16x16_sub_sat => (Vs.i16x16_sub_sat s v.a v.b).isSome
  | .i16x16_mul_lo => (Vs.i16x16_mul_lo s v.a v.b).isSome
  | .i32x8_mul_lo => (Vs.i32x8_mul_lo s v.a v.b).isSome
  | .u16x16_shl => (Vs.u16x16_shl s v.k v.a).isSome
  | .u32x8_shl => (Vs.u32x8_shl s v.k v.a).isSome
  | .u16x16_shr => (Vs.u16x16_shr s v.k v.a).isSome
  | .u32x8_shr => (Vs.u32x8_shr s v.k v.a).isSome
  | .u8x32_eq => (Vs.u8x32_eq s v.a v.b).isSome
  | .u16x16_eq => (Vs.u16x16_eq s v.a v.b).isSome
  | .u32x8_eq => (Vs.u32x8_eq s v.a v.b).isSome
  | .u8x32_lt => (Vs.u8x32_lt s v.a v.b).isSome
  | .u16x16_lt => (Vs.u16x16_lt s v.a v.b).isSome
  | .u32x8_lt => (Vs.u32x8_lt s v.a v.b).isSome
  | .i8x32_lt => (Vs.i8x32_lt s v.a v.b).isSome
  | .i16x16_lt => (Vs.i16x16_lt s v.a v.b).isSome
  | .i32x8_lt => (Vs.i32x8_lt s v.a v.b).isSome
  | .u8x32_max => (Vs.u8x32_max s v.a v.b).isSome
  | .u16x16_max => (Vs.u16x16_max s v.a v.b).isSome
  | .u32x8_max => (Vs.u32x8_max s v.a v.b).isSome
  | .i8x32_max => (Vs.i8x32_max s v.a v.b).isSome
  | .i16x16_max => (Vs.i16x16_max s v.a v.b).isSome
  | .i32x8_max => (Vs.i32x8_max s v.a v.b).isSome
  | .u8x32_min => (Vs.u8x32_min s v.a v.b).isSome
  | .u16x16_min => (Vs.u16x16_min s v.a v.b).isSome
  | .u32x8_min => (Vs.u32x8_min s v.a v.b).isSome
  | .i8x32_min => (Vs.i8x32_min s v.a v.b).isSome
  | .i16x16_min => (Vs.i16x16_min s v.a v.b).isSome
  | .i32x8_min => (Vs.i32x8_min s v.a v.b).isSome
  | .u8x16x2_swizzle => (Vs.u8x16x2_swizzle s v.a v.b).isSome
  | .u16x16_bswap => (Vs.u16x16_bswap s v.a).isSome
  | .u32x8_bswap => (Vs.u32x8_bswap s v.a).isSome
  | .u64x4_bswap => (Vs.u64x4_bswap s v.a).isSome
  | .u8x32_swizzle => (Vs.u8x32_swizzle s v.a v.b).isSome
  | .u8x32_any_zero => (Vs.u8x32_any_zero s v.a).isSome
  | .u8x32_bitmask => (Vs.u8x32_bitmask s v.a).isSome
  | .u8x32_reduce_max => (Vs.u8x32_reduce_max s v.a).isSome
  | .u8x32_reduce_min => (Vs.u8x32_reduce_min s v.a).isSome
  | .v256_bsl => (Vs.v256_bsl s v.a v.b v.c).isSome
  | .u16x16_from_u8x16 => (Vs.u16x16_from_u8x16 s v.a.lo).isSome
  | .u8x16x2_zip_lo => (Vs.u8x16x2_zip_lo s v.a v.b).isSome
  | .u8x16x2_zip_hi => (Vs.u8x16x2_zip_hi s v.a v.b).isSome
  | .u16x8x2_zip_lo => (Vs.u16x8x2_zip_lo s v.a v.b).isSome
  | .u16x8x2_zip_hi => (Vs.u16x8x2_zip_hi s v.a v.b).isSome
  | .u32x4x2_zip_lo => (Vs.u32x4x2_zip_lo s v.a v.b).isSome
  | .u32x4x2_zip_hi => (Vs.u32x4x2_zip_hi s v.a v.b).isSome
  | .u64x2x2_zip_lo => (Vs.u64x2x2_zip_lo s v.a v.b).isSome
  | .u64x2x2_zip_hi => (Vs.u64x2x2_zip_hi s v.a v.b).isSome
  | .v128x2_zip_lo => (Vs.v128x2_zip_lo s v.a v.b).isSome
  | .v128x2_zip_hi => (Vs.v128x2_zip_hi s v.a v.b).isSome
  | .u64x4_permute => (Vs.u64x4_permute s v.k v.a).isSome
  | .u8x32_unzip_even => (Vs.u8x32_unzip_even s v.a v.b).isSome
  | .u8x32_unzip_odd => (Vs.u8x32_unzip_odd s v.a v.b).isSome
  | .u64x4_unzip_even => (Vs.u64x4_unzip_even s v.a v.b).isSome
  | .u64x4_unzip_odd => (Vs.u64x4_unzip_odd s v.a v.b).isSome
  | .u16x16_mul_hi => (Vs.u16x16_mul_hi s v.a v.b).isSome
  | .i16x16_mul_hi => (Vs.i16x16_mul_hi s v.a v.b).isSome
  | .i16x16_maddubs => (Vs.i16x16_maddubs s v.a v.b).isSome
  | .u32x8_blend => (Vs.u32x8_blend s v.k v.a v.b).isSome
  | .u8x32_blendv => (Vs.u8x32_blendv s v.a v.b v.c).isSome
  | .i16x16_madd => (Vs.i16x16_madd s v.a v.b).isSome
  | .u8x32_avgr => (Vs.u8x32_avgr s v.a v.b).isSome
  | .i8x32_add_sat => (Vs.i8x32_add_sat s v.a v.b).isSome
  | .u8x32_add_sat => (Vs.u8x32_add_sat s v.a v.b).isSome

/-- The 128-bit method of which the 256-bit method is the double-width version, if there is one. -/
def M256.half : M256 → Option M128
  | .v256_create_zero => some .v128_create_zero
  | .v256_not => some .v128_not
  | .v256_and => some .v128_and
  | .v256_or => some .v128_or
  | .v256_xor => some .v128_xor
  | .v256_andnot => some .v128_andnot
  | .v256_all_zero => some .v128_all_zero
  | .u8x32_splat => some .u8x16_splat
  | .u16x16_splat => some .u16x8_splat
  | .u32x8_splat => some .u32x4_splat
  | .u64x4_splat => some .u64x2_splat
  | .i8x32_splat => some .i8x16_splat
  | .i16x16_splat => some .i16x8_splat
  | .i32x8_splat => some .i32x4_splat
  | .i64x4_splat => some .i64x2_splat
  | .u8x32_add => some .u8x16_add
  | .u16x16_add => some .u16x8_add
  | .u32x8_add => some .u32x4_add
  | .u64x4_add => some .u64x2_add
  | .u8x32_sub => some .u8x16_sub
  | .u16x16_sub => some .u16x8_sub
  | .u32x8_sub => some .u32x4_sub
  | .u64x4_sub => some .u64x2_sub
  | .u8x32_sub_sat => some .u8x16_sub_sat
  | .u16x16_sub_sat => some .u16x8_sub_sat
  | .i8x32_sub_sat => some .i8x16_sub_sat
  | .i16x16_sub_sat => some .i16x8_sub_sat
  | .i16x16_mul_lo => some .i16x8_mul_lo
  | .i32x8_mul_lo => some .i32x4_mul_lo
  | .u16x16_shl => some .u16x8_shl
  | .u32x8_shl => some .u32x4_shl
  | .u16x16_shr => some .u16x8_shr
  | .u32x8_shr => some .u32x4_shr
  | .u8x32_eq => some .u8x16_eq
  | .u16x16_eq => some .u16x8_eq
  | .u32x8_eq => some .u32x4_eq
  | .u8x32_lt => some .u8x16_lt
  | .u16x16_lt => some .u16x8_lt
  | .u32x8_lt => some .u32x4_lt
  | .i8x32_lt => some .i8x16_lt
  | .i16x16_lt => some .i16x8_lt
  | .i32x8_lt => some .i32x4_lt
  | .u8x32_max => some .u8x16_max
  | .u16x16_max => some .u16x8_max
  | .u32x8_max => some .u32x4_max
  | .i8x32_max => some .i8x16_max
  | .i16x16_max => some .i16x8_max
  | .i32x8_max => some .i32x4_max
  | .u8x32_min => some .u8x16_min
  | .u16x16_min => some .u16x8_min
  | .u32x8_min => some .u32x4_min
  | .i8x32_min => some .i8x16_min
  | .i16x16_min => some .i16x8_min
  | .i32x8_min => some .i32x4_min
  | .u8x16x2_swizzle => some .u8x16_swizzle
  | .u16x16_bswap => some .u16x8_bswap
  | .u32x8_bswap => some .u32x4_bswap
  | .u64x4_bswap => some .u64x2_bswap
  | .u8x32_any_zero => some .u8x16_any_zero
  | .u8x32_bitmask => some .u8x16_bitmask
  | .u8x32_reduce_max => some .u8x16_reduce_max
  | .u8x32_reduce_min => some .u8x16_reduce_min
  | .v256_bsl => some .v128_bsl
  | .u8x16x2_zip_lo => some .u8x16_zip_lo
  | .u8x16x2_zip_hi => some .u8x16_zip_hi
  | .u16x8x2_zip_lo => some .u16x8_zip_lo
  | .u16x8x2_zip_hi => some .u16x8_zip_hi
  | .u32x4x2_zip_lo => some .u32x4_zip_lo
  | .u32x4x2_zip_hi => some .u32x4_zip_hi
  | .u64x2x2_zip_lo => some .u64x2_zip_lo
  | .u64x2x2_zip_hi => some .u64x2_zip_hi
  | .u8x32_unzip_even => some .u8x16_unzip_even
  | .u8x32_unzip_odd => some .u8x16_unzip_odd
  | .u16x16_mul_hi => some .u16x8_mul_hi
  | .i16x16_mul_hi => some .i16x8_mul_hi
  | .i16x16_maddubs => some .i16x8_maddubs
  | .u8x32_blendv => some .u8x16_blendv
  | .i16x16_madd => some .i16x8_madd
  | .u8x32_avgr => some .u8x16_avgr
  | .i8x32_add_sat => some .i8x16_add_sat
  | .u8x32_add_sat => some .u8x16_add_sat
  | .u8x32_swizzle | .u16x16_from_u8x16 | .v128x2_zip_lo | .v128x2_zip_hi | .u64x4_permute | .u64x4_unzip_even | .u64x4_unzip_odd | .u32x8_blend => none

/-- The instruction sets other than AVX2 on which a 256-bit method works: those of the 128-bit method; the others are written out. -/
def M256.sets (m : M256) : List Req :=
  match m.half with
  | some h => h.doc
  | none =>
    match m with
    | .u8x32_swizzle => [.neonA64]
    | .u64x4_permute | .u32x8_blend => []
    | _ => [.sse2, .neon, .wasm128]

/-- C54: without AVX2 a 256-bit method is implemented exactly where its 128-bit counterpart is documented to be. -/
theorem C54_double (m : M256) (s : Isa) (v : Args 32) (hs : s ≠ .avx2) : m.works s v = m.sets.any (·.met s) := by
  cases s
  case avx2 => exact absurd rfl hs
  all_goals cases m <;> rfl

/-- C54: with AVX2 every 256-bit method is implemented, except the byte de-interleavings, the byte reductions and the 32-byte table lookup. -/
theorem C54_avx2 (m : M256) (v : Args 32) :
    m.works .avx2 v = !decide (m ∈ [.u8x32_swizzle, .u8x32_unzip_even, .u8x32_unzip_odd, .u8x32_reduce_max, .u8x32_reduce_min]) := by
  cases m <;> rfl

/-- C54: so the double of a 128-bit method never panics on an instruction set documented for that method, AVX2 included. -/
theorem C54_safe (m : M256) (h : M128) (s : Isa) (v : Args 32) (hm : m.half = some h) (hd : h.doc.any (·.met s) = true) : m.works s v = true := by
  by_cases hs : s = .avx2
  · subst hs
    rw [C54_avx2]
    cases m <;> simp [M256.half] at hm ⊢ <;> subst hm <;> revert hd <;> decide
  · rw [C54_double m s v hs]; unfold M256.sets; simp only [hm]; exact hd

example : M256.half .u16x16_bswap = some .u16x8_bswap ∧ (M128.doc .u16x8_bswap).any (·.met .ssse3) = false ∧ (M128.doc .u16x8_bswap).any (·.met .sse41) = true :=
  ⟨rfl, rfl, rfl⟩

/-! ### The generic functions of unified.rs

They have no doc comments; the table says for which element types each is implemented. -/

/-- Bits of an element type. -/
def bits : Elem → Nat
  | .u8 | .i8 => 8
  | .u16 | .i16 => 16
  | .u32 | .i32 => 32
  | .u64 | .i64 => 64

/-- The instruction sets on which a generic operation on `V128` is implemented: 64-bit comparisons only where there is an instruction for them, 32-bit saturation only on NEON, and the
maxima and minima that SSE2 lacks from SSE4.1 on. -/
def generic (op : Op2) (t : Elem) : List Req :=
  match op with
  | .add | .sub => [.sse2, .neon, .wasm128]
  | .eq => if bits t ≤ 32 then [.sse2, .neon, .wasm128] else [.neonA64, .wasm128]
  | .lt => if bits t ≤ 32 then [.sse2, .neon, .wasm128] else if t = .i64 then [.neonA64, .wasm128] else [.neonA64]
  | .addSat | .subSat => if bits t ≤ 16 then [.sse2, .neon, .wasm128] else if bits t = 32 then [.neon] else []
  | .max | .min => if t = .u8 ∨ t = .i16 then [.sse2, .neon, .wasm128] else if bits t ≤ 32 then [.sse41, .neon, .wasm128] else []

/-- C54 for the generic binary functions on `V128`. -/
theorem C54_generic128 (op : Op2) (s : Isa) (t : Elem) (a b : V128) : (op.run128 s t a b).isSome = (generic op t).any (·.met s) := by
  cases op <;> cases t <;> cases s <;> rfl

/-- C54 for the generic binary functions on `V256`: as on `V128`, and AVX2 also has the 64-bit `eq` and the signed 64-bit `lt`. -/
theorem C54_generic256 (op : Op2) (s : Isa) (t : Elem) (a b : V256) : (op.run256 s t a b).isSome =
    ((generic op t).any (·.met s) || (s == .avx2 && (op == .eq || op == .lt && t == .i64))) := by
  cases op <;> cases t <;> cases s <;> rfl

/-- C54 for `splat`: every element type, everywhere. -/
theorem C54_splat (s : Isa) (t : Elem) (x : BitVec (8 * t.bytes)) : (splat128 s t x).isSome = true ∧ (splat256 s t x).isSome = true := by
  cases t <;> cases s <;> exact ⟨rfl, rfl⟩

example : (generic .eq .u64).any (·.met .neon32) = false ∧ (generic .eq .u64).any (·.met .neon64) = true ∧ (generic .lt .u64).any (·.met .wasm128) = false := ⟨rfl, rfl, rfl⟩

end Vsimd
end Simd
