import Verif.Model.Isa
/-
The vsimd operations (crates/vsimd/src/{unified,simd64,simd128,simd256,scalable,mask,table}.rs).

Every operation takes the instruction set `s` (`self`/`S`) and has the branches of the Rust code in the same
order. `none` is a panic: `unreachable!()` or `unimplemented!()`. `cfg(miri)` branches are not modelled.
`cfg`-gated branches are guarded in Rust by the architecture, which `Isa.is` already implies.
-/
namespace Simd
namespace Vs
open IsaId Intrin

/-- A chain of branches SSE2 / NEON / WASM128 whose intrinsics have the same lane semantics `r`;
otherwise `unreachable!()`. -/
def t1 {α : Type} (s : Isa) (r : α) : Option α :=
  if s.is SSE2 then some r
  else if s.is NEON then some r
  else if s.is WASM128 then some r
  else none

/-- `simd256_vop!` with one operand (simd256.rs:30-37). -/
def vop1 (f : V128 → Option V128) (a : V256) : Option V256 := do
  let c0 ← f a.lo
  let c1 ← f a.hi
  pure (join c0 c1)
/-- `simd256_vop!` with two operands (simd256.rs:38-45). -/
def vop2 (f : V128 → V128 → Option V128) (a b : V256) : Option V256 := do
  let c0 ← f a.lo b.lo
  let c1 ← f a.hi b.hi
  pure (join c0 c1)
/-- `simd256_vop!` with three operands (simd256.rs:46-54). -/
def vop3 (f : V128 → V128 → V128 → Option V128) (a b c : V256) : Option V256 := do
  let c0 ← f a.lo b.lo c.lo
  let c1 ← f a.hi b.hi c.hi
  pure (join c0 c1)

/-! ### Loads and stores -/

/-- `v128_load_unaligned` (simd128.rs:59-76). -/
def v128_load (s : Isa) (p : Ptr) : Prog V128 :=
  if s.is SSE2 then do return .ofList (← loadBytes p 16)
  else if s.is NEON then do return .ofList (← loadBytes p 16)
  else if s.is WASM128 then do return .ofList (← loadBytes p 16)
  else .panic

/-- `v128_store_unaligned` (simd128.rs:103-123). -/
def v128_store (s : Isa) (p : Ptr) (a : V128) : Prog Unit :=
  if s.is SSE2 then storeBytes p a.toList
  else if s.is NEON then storeBytes p a.toList
  else if s.is WASM128 then storeBytes p a.toList
  else .panic

/-- `v256_load_unaligned` (simd256.rs:78-92). -/
def v256_load (s : Isa) (p : Ptr) : Prog V256 :=
  if s.is AVX2 then do return .ofList (← loadBytes p 32)
  else if s.is NEON then do return .ofList (← loadBytes p 32)
  else do
    let x0 ← v128_load s p
    padd p 16
    let x1 ← v128_load s (p.add 16)
    return join x0 x1

/-- `v256_store_unaligned` (simd256.rs:114-128). -/
def v256_store (s : Isa) (p : Ptr) (a : V256) : Prog Unit :=
  if s.is AVX2 then storeBytes p a.toList
  else if s.is NEON then storeBytes p a.toList
  else do
    v128_store s p a.lo
    padd p 16
    v128_store s (p.add 16) a.hi

/-! ### 128-bit operations -/

/-- `v128_create_zero` (simd128.rs:127-143). -/
def v128_create_zero (s : Isa) : Option V128 := t1 s (set1_8 0)

/-- `v128_not` (simd128.rs:149-169): SSE2 is `xor(a, cmpeq(a, a))`. -/
def v128_not (s : Isa) (a : V128) : Option V128 :=
  if s.is SSE2 then some (Intrin.xor a (eq8 a a))
  else if s.is NEON then some (Intrin.not a)
  else if s.is WASM128 then some (Intrin.not a)
  else none

/-- `unified::and` on V128 (unified.rs:911-947). -/
def v128_and (s : Isa) (a b : V128) : Option V128 := t1 s (Intrin.and a b)
/-- `unified::or` on V128 (unified.rs:950-986). -/
def v128_or (s : Isa) (a b : V128) : Option V128 := t1 s (Intrin.or a b)
/-- `unified::xor` on V128 (unified.rs:989-1025). -/
def v128_xor (s : Isa) (a b : V128) : Option V128 := t1 s (Intrin.xor a b)
/-- `unified::andnot` on V128 (unified.rs:1028-1066): SSE2 swaps the arguments of `_mm_andnot_si128`. -/
def v128_andnot (s : Isa) (a b : V128) : Option V128 :=
  if s.is SSE2 then some (mm_andnot b a)
  else if s.is NEON then some (bic a b)
  else if s.is WASM128 then some (bic a b)
  else none

/-- `v128_all_zero` (simd128.rs:199-227). -/
def v128_all_zero (s : Isa) (a : V128) : Option Bool :=
  if s.is SSE41 then some (testz a)
  else if s.arm && s.is NEON then
    some (vpmax_u32_0 (Intrin.or a.lo64 a.hi64) == 0)
  else if s.aarch64 && s.is NEON then some (maxv a == 0)
  else if s.is WASM128 then some (testz a)
  else none

/-- `unified::splat::<u8/i8, V128>` (unified.rs:33-97). -/
def u8x16_splat (s : Isa) (x : Byte) : Option V128 := t1 s (set1_8 x)
/-- `unified::splat::<u16, V128>` (unified.rs:33-97). -/
def u16x8_splat (s : Isa) (x : BitVec 16) : Option V128 := t1 s (set1_16 x)
/-- `unified::splat::<u32, V128>` (unified.rs:33-97). -/
def u32x4_splat (s : Isa) (x : BitVec 32) : Option V128 := t1 s (set1_32 x)
/-- `unified::splat::<u64, V128>` (unified.rs:33-97). -/
def u64x2_splat (s : Isa) (x : BitVec 64) : Option V128 := t1 s (set1_64 x)

/-- `unified::add::<u8, V128>` (unified.rs:100-176). -/
def u8x16_add (s : Isa) (a b : V128) : Option V128 := t1 s (add8 a b)
/-- `unified::sub::<u8, V128>` (unified.rs:179-255). -/
def u8x16_sub (s : Isa) (a b : V128) : Option V128 := t1 s (sub8 a b)
/-- `unified::sub::<u32, V128>` (unified.rs:179-255). -/
def u32x4_sub (s : Isa) (a b : V128) : Option V128 := t1 s (sub32 a b)
/-- `unified::add_sat::<i8, V128>` (unified.rs:481-563). -/
def i8x16_add_sat (s : Isa) (a b : V128) : Option V128 := t1 s (adds_i8 a b)
/-- `unified::add_sat::<u8, V128>` (unified.rs:481-563). -/
def u8x16_add_sat (s : Isa) (a b : V128) : Option V128 := t1 s (adds_u8 a b)
/-- `unified::sub_sat::<u8, V128>` (unified.rs:566-648). -/
def u8x16_sub_sat (s : Isa) (a b : V128) : Option V128 := t1 s (subs_u8 a b)
/-- `unified::eq::<u8, V128>` (unified.rs:258-332). -/
def u8x16_eq (s : Isa) (a b : V128) : Option V128 := t1 s (eq8 a b)
/-- `unified::lt::<i8, V128>` (unified.rs:383-385, 422-424, 450-452). -/
def i8x16_lt (s : Isa) (a b : V128) : Option V128 := t1 s (lt_i8 a b)
/-- `unified::lt::<u8, V128>` (unified.rs:392-398, 435-437, 462-464): SSE2 is `!(a == max(a, b))`. -/
def u8x16_lt (s : Isa) (a b : V128) : Option V128 :=
  if s.is SSE2 then some (Intrin.xor (eq8 a (max_u8 a b)) (eq8 a a))
  else if s.is NEON then some (lt_u8 a b)
  else if s.is WASM128 then some (lt_u8 a b)
  else none
/-- `unified::lt::<u32, V128>` (unified.rs:407-414, 441-443, 468-470): SSE2 flips the sign bits and compares signed. -/
def u32x4_lt (s : Isa) (a b : V128) : Option V128 :=
  if s.is SSE2 then
    some (lt_i32 (Intrin.xor a (set1_32 0x80000000)) (Intrin.xor b (set1_32 0x80000000)))
  else if s.is NEON then some (lt_u32 a b)
  else if s.is WASM128 then some (lt_u32 a b)
  else none
/-- `unified::max::<u8, V128>` (unified.rs:650-777). -/
def u8x16_max (s : Isa) (a b : V128) : Option V128 := t1 s (max_u8 a b)
/-- `unified::min::<u8, V128>` (unified.rs:780-908). -/
def u8x16_min (s : Isa) (a b : V128) : Option V128 := t1 s (min_u8 a b)
/-- `unified::max::<u32, V128>` (unified.rs:650-777): needs SSE4.1 on x86. -/
def u32x4_max (s : Isa) (a b : V128) : Option V128 :=
  if s.is SSE41 then some (max_u32 a b)
  else if s.is NEON then some (max_u32 a b)
  else if s.is WASM128 then some (max_u32 a b)
  else none

/-- `i16x8_mul_lo` (simd128.rs:351-368). -/
def i16x8_mul_lo (s : Isa) (a b : V128) : Option V128 := t1 s (mullo16 a b)
/-- `u16x8_shl` (simd128.rs:393-413). -/
def u16x8_shl (s : Isa) (k : Nat) (a : V128) : Option V128 := t1 s (shl16 k a)
/-- `u32x4_shl` (simd128.rs:417-434). -/
def u32x4_shl (s : Isa) (k : Nat) (a : V128) : Option V128 := t1 s (shl32 k a)
/-- `u16x8_shr` (simd128.rs:438-458). -/
def u16x8_shr (s : Isa) (k : Nat) (a : V128) : Option V128 := t1 s (shr16 k a)
/-- `u32x4_shr` (simd128.rs:462-479). -/
def u32x4_shr (s : Isa) (k : Nat) (a : V128) : Option V128 := t1 s (shr32 k a)

/-- `u8x16_swizzle` (simd128.rs:617-644). -/
def u8x16_swizzle (s : Isa) (a b : V128) : Option V128 :=
  if s.is SSSE3 then some (shuffle_epi8 a b)
  else if s.is NEON then some (tbl16 a b)
  else if s.is WASM128 then some (tbl16 a b)
  else none

/-- `SHUFFLE_U16X8` (bswap.rs:5-8). -/
def SHUFFLE_U16X8 : V128 := .ofList [1, 0, 3, 2, 5, 4, 7, 6, 9, 8, 11, 10, 13, 12, 15, 14]
/-- `SHUFFLE_U32X4` (bswap.rs:10-13). -/
def SHUFFLE_U32X4 : V128 := .ofList [3, 2, 1, 0, 7, 6, 5, 4, 11, 10, 9, 8, 15, 14, 13, 12]
/-- `SHUFFLE_U64X2` (bswap.rs:15-18). -/
def SHUFFLE_U64X2 : V128 := .ofList [7, 6, 5, 4, 3, 2, 1, 0, 15, 14, 13, 12, 11, 10, 9, 8]

/-- `u16x8_bswap` (simd128.rs:648-662): note that SSSE3 alone is not handled. -/
def u16x8_bswap (s : Isa) (a : V128) : Option V128 :=
  if s.is SSE41 || s.is WASM128 then u8x16_swizzle s a SHUFFLE_U16X8
  else if s.is NEON then some (rev16 a)
  else none
/-- `u32x4_bswap` (simd128.rs:666-680). -/
def u32x4_bswap (s : Isa) (a : V128) : Option V128 :=
  if s.is SSE41 || s.is WASM128 then u8x16_swizzle s a SHUFFLE_U32X4
  else if s.is NEON then some (rev32 a)
  else none
/-- `u64x2_bswap` (simd128.rs:684-698). -/
def u64x2_bswap (s : Isa) (a : V128) : Option V128 :=
  if s.is SSE41 || s.is WASM128 then u8x16_swizzle s a SHUFFLE_U64X2
  else if s.is NEON then some (rev64 a)
  else none

/-- `u8x16_bitmask` (simd128.rs:735-755): NEON is `unimplemented!()`. -/
def u8x16_bitmask (s : Isa) (a : V128) : Option Nat :=
  if s.is SSE2 then some (movemask a)
  else if s.is NEON then none
  else if s.is WASM128 then some (movemask a)
  else none

/-- `u8x16_any_zero` (simd128.rs:704-731). -/
def u8x16_any_zero (s : Isa) (a : V128) : Option Bool :=
  if s.is SSE2 then do
    let z ← v128_create_zero s
    let is_zero ← u8x16_eq s a z
    let m ← u8x16_bitmask s is_zero
    return m != 0
  else if s.arm && s.is NEON then
    let a := vpmin_u8 a.lo64 a.hi64
    some (!((vtst_u8 a a).toList.all (· == 0xff)))
  else if s.aarch64 && s.is NEON then some (minv a == 0)
  else if s.is WASM128 then some (!all_true a)
  else none

/-- `u8x16_reduce_max` (simd128.rs:759-775): only aarch64. -/
def u8x16_reduce_max (s : Isa) (a : V128) : Option Byte :=
  if s.is SSE41 || s.is WASM128 then none
  else if s.arm && s.is NEON then none
  else if s.aarch64 && s.is NEON then some (maxv a)
  else none
/-- `u8x16_reduce_min` (simd128.rs:779-795): only aarch64. -/
def u8x16_reduce_min (s : Isa) (a : V128) : Option Byte :=
  if s.is SSE41 || s.is WASM128 then none
  else if s.arm && s.is NEON then none
  else if s.aarch64 && s.is NEON then some (minv a)
  else none

/-- `v128_bsl` (simd128.rs:801-813). -/
def v128_bsl (s : Isa) (a b c : V128) : Option V128 :=
  if s.is SSE2 || s.is WASM128 then do
    let x ← v128_xor s b c
    let y ← v128_and s x a
    v128_xor s y c
  else if s.is NEON then some (bsl a b c)
  else none

/-- `u8x16_zip_lo` (simd128.rs:817-840). -/
def u8x16_zip_lo (s : Isa) (a b : V128) : Option V128 := t1 s (unpacklo8 a b)
/-- `u8x16_zip_hi` (simd128.rs:844-867). -/
def u8x16_zip_hi (s : Isa) (a b : V128) : Option V128 := t1 s (unpackhi8 a b)
/-- `u64x2_zip_lo` (simd128.rs:979-1001). -/
def u64x2_zip_lo (s : Isa) (a b : V128) : Option V128 := t1 s (unpacklo64 a b)

/-- `u8x16_unzip_even` (simd128.rs:1031-1054): SSE2 is `unimplemented!()`. -/
def u8x16_unzip_even (s : Isa) (a b : V128) : Option V128 :=
  if s.is SSE2 then none
  else if s.is NEON then some (uzp1_128 a b)
  else if s.is WASM128 then some (uzp1_128 a b)
  else none

/-- `u8x8_unzip_even` (simd64.rs:21-34): NEON only. -/
def u8x8_unzip_even (s : Isa) (a b : V64) : Option V64 :=
  if s.is NEON then some (uzp1_64 a b) else none

/-- `u16x8_mul_hi` (simd128.rs:1085-1097): SSE2 only. -/
def u16x8_mul_hi (s : Isa) (a b : V128) : Option V128 := if s.is SSE2 then some (mulhi_u16 a b) else none
/-- `i16x8_maddubs` (simd128.rs:1117-1129): SSSE3 only. -/
def i16x8_maddubs (s : Isa) (a b : V128) : Option V128 := if s.is SSSE3 then some (maddubs a b) else none
/-- `u16x8_blend` (simd128.rs:1133-1145): SSE4.1 only. -/
def u16x8_blend (s : Isa) (imm : Nat) (a b : V128) : Option V128 := if s.is SSE41 then some (blend16 imm a b) else none
/-- `u8x16_blendv` (simd128.rs:1151-1163): SSE4.1 only. -/
def u8x16_blendv (s : Isa) (a b c : V128) : Option V128 := if s.is SSE41 then some (blendv a b c) else none
/-- `i16x8_madd` (simd128.rs:1167-1179): SSE2 only. -/
def i16x8_madd (s : Isa) (a b : V128) : Option V128 := if s.is SSE2 then some (madd16 a b) else none
/-- `u8x16_avgr` (simd128.rs:1183-1200). -/
def u8x16_avgr (s : Isa) (a b : V128) : Option V128 := t1 s (avg_u8 a b)
/-- `i16x8_packus` (simd128.rs:1216-1228): SSE2 only. -/
def i16x8_packus (s : Isa) (a b : V128) : Option V128 := if s.is SSE2 then some (packus a b) else none

/-! ### 256-bit operations -/

/-- `v256_create_zero` (simd256.rs:131-139). -/
def v256_create_zero (s : Isa) : Option V256 :=
  if s.is AVX2 then some (set1_8 0) else do return (← v128_create_zero s).x2
/-- `unified::and` on V256 (unified.rs:911-947). -/
def v256_and (s : Isa) (a b : V256) : Option V256 := if s.is AVX2 then some (Intrin.and a b) else vop2 (v128_and s) a b
/-- `unified::or` on V256 (unified.rs:950-986). -/
def v256_or (s : Isa) (a b : V256) : Option V256 := if s.is AVX2 then some (Intrin.or a b) else vop2 (v128_or s) a b
/-- `unified::xor` on V256 (unified.rs:989-1025). -/
def v256_xor (s : Isa) (a b : V256) : Option V256 := if s.is AVX2 then some (Intrin.xor a b) else vop2 (v128_xor s) a b
/-- `unified::andnot` on V256 (unified.rs:1028-1066). -/
def v256_andnot (s : Isa) (a b : V256) : Option V256 := if s.is AVX2 then some (mm_andnot b a) else vop2 (v128_andnot s) a b

/-- `v256_all_zero` (simd256.rs:178-190). -/
def v256_all_zero (s : Isa) (a : V256) : Option Bool :=
  if s.is AVX2 then some (testz a) else do v128_all_zero s (← v128_or s a.lo a.hi)

/-- `unified::splat::<u8/i8, V256>` (unified.rs:33-46). -/
def u8x32_splat (s : Isa) (x : Byte) : Option V256 :=
  if s.is AVX2 then some (set1_8 x) else do return (← u8x16_splat s x).x2
/-- `unified::splat::<u16, V256>` (unified.rs:42-45): duplicated V128. -/
def u16x16_splat (s : Isa) (x : BitVec 16) : Option V256 := do return (← u16x8_splat s x).x2
/-- `unified::splat::<u32, V256>`. -/
def u32x8_splat (s : Isa) (x : BitVec 32) : Option V256 := do return (← u32x4_splat s x).x2
/-- `unified::splat::<u64, V256>`. -/
def u64x4_splat (s : Isa) (x : BitVec 64) : Option V256 := do return (← u64x2_splat s x).x2

/-- `unified::add::<u8, V256>` (unified.rs:100-176). -/
def u8x32_add (s : Isa) (a b : V256) : Option V256 := if s.is AVX2 then some (add8 a b) else vop2 (u8x16_add s) a b
/-- `unified::sub::<u8, V256>` (unified.rs:179-255). -/
def u8x32_sub (s : Isa) (a b : V256) : Option V256 := if s.is AVX2 then some (sub8 a b) else vop2 (u8x16_sub s) a b
/-- `unified::sub::<u32, V256>` (unified.rs:179-255). -/
def u32x8_sub (s : Isa) (a b : V256) : Option V256 := if s.is AVX2 then some (sub32 a b) else vop2 (u32x4_sub s) a b
/-- `unified::add_sat::<i8, V256>` (unified.rs:481-563). -/
def i8x32_add_sat (s : Isa) (a b : V256) : Option V256 := if s.is AVX2 then some (adds_i8 a b) else vop2 (i8x16_add_sat s) a b
/-- `unified::sub_sat::<u8, V256>` (unified.rs:566-648). -/
def u8x32_sub_sat (s : Isa) (a b : V256) : Option V256 := if s.is AVX2 then some (subs_u8 a b) else vop2 (u8x16_sub_sat s) a b
/-- `unified::eq::<u8, V256>` (unified.rs:258-332). -/
def u8x32_eq (s : Isa) (a b : V256) : Option V256 := if s.is AVX2 then some (eq8 a b) else vop2 (u8x16_eq s) a b
/-- `unified::lt::<i8, V256>` (unified.rs:339-341, 372-378). -/
def i8x32_lt (s : Isa) (a b : V256) : Option V256 := if s.is AVX2 then some (lt_i8 a b) else vop2 (i8x16_lt s) a b
/-- `unified::lt::<u8, V256>` (unified.rs:351-357, 372-378). -/
def u8x32_lt (s : Isa) (a b : V256) : Option V256 :=
  if s.is AVX2 then some (Intrin.xor (eq8 a (max_u8 a b)) (eq8 a a)) else vop2 (u8x16_lt s) a b
/-- `unified::lt::<u32, V256>` (unified.rs:365-371, 372-378). -/
def u32x8_lt (s : Isa) (a b : V256) : Option V256 :=
  if s.is AVX2 then some (Intrin.xor (eq32 a (max_u32 a b)) (eq32 a a)) else vop2 (u32x4_lt s) a b
/-- `unified::max::<u32, V256>` (unified.rs:650-777). -/
def u32x8_max (s : Isa) (a b : V256) : Option V256 := if s.is AVX2 then some (max_u32 a b) else vop2 (u32x4_max s) a b

/-- `i16x16_mul_lo` (simd256.rs:293-301). -/
def i16x16_mul_lo (s : Isa) (a b : V256) : Option V256 := if s.is AVX2 then some (mullo16 a b) else vop2 (i16x8_mul_lo s) a b
/-- `u16x16_shl` (simd256.rs:315-323). -/
def u16x16_shl (s : Isa) (k : Nat) (a : V256) : Option V256 := if s.is AVX2 then some (shl16 k a) else vop1 (u16x8_shl s k) a
/-- `u32x8_shl` (simd256.rs:326-334). -/
def u32x8_shl (s : Isa) (k : Nat) (a : V256) : Option V256 := if s.is AVX2 then some (shl32 k a) else vop1 (u32x4_shl s k) a
/-- `u16x16_shr` (simd256.rs:337-345). -/
def u16x16_shr (s : Isa) (k : Nat) (a : V256) : Option V256 := if s.is AVX2 then some (shr16 k a) else vop1 (u16x8_shr s k) a
/-- `u32x8_shr` (simd256.rs:348-356). -/
def u32x8_shr (s : Isa) (k : Nat) (a : V256) : Option V256 := if s.is AVX2 then some (shr32 k a) else vop1 (u32x4_shr s k) a

/-- `u8x16x2_swizzle` (simd256.rs:464-472). -/
def u8x16x2_swizzle (s : Isa) (a b : V256) : Option V256 :=
  if s.is AVX2 then some (shuffle_epi8 a b) else vop2 (u8x16_swizzle s) a b
/-- `u16x16_bswap` (simd256.rs:475-482), `SHUFFLE_U16X16 = SHUFFLE_U16X8.x2()` (bswap.rs:20). -/
def u16x16_bswap (s : Isa) (a : V256) : Option V256 :=
  if s.is AVX2 then u8x16x2_swizzle s a SHUFFLE_U16X8.x2 else vop1 (u16x8_bswap s) a
/-- `u32x8_bswap` (simd256.rs:485-492). -/
def u32x8_bswap (s : Isa) (a : V256) : Option V256 :=
  if s.is AVX2 then u8x16x2_swizzle s a SHUFFLE_U32X4.x2 else vop1 (u32x4_bswap s) a
/-- `u64x4_bswap` (simd256.rs:495-502). -/
def u64x4_bswap (s : Isa) (a : V256) : Option V256 :=
  if s.is AVX2 then u8x16x2_swizzle s a SHUFFLE_U64X2.x2 else vop1 (u64x2_bswap s) a

/-- `u8x32_swizzle` (simd256.rs:505-527): aarch64 only. -/
def u8x32_swizzle (s : Isa) (a b : V256) : Option V256 :=
  if s.is SSE2 || s.is WASM128 then none
  else if s.arm && s.is NEON then none
  else if s.aarch64 && s.is NEON then some (tbl32 a b)
  else none

/-- `u8x32_bitmask` (simd256.rs:542-553). -/
def u8x32_bitmask (s : Isa) (a : V256) : Option Nat :=
  if s.is AVX2 then some (movemask a)
  else do
    let m0 ← u8x16_bitmask s a.lo
    let m1 ← u8x16_bitmask s a.hi
    return m1 <<< 16 ||| m0

/-- `v256_bsl` (simd256.rs:571-578). -/
def v256_bsl (s : Isa) (a b c : V256) : Option V256 :=
  if s.is NEON then vop3 (v128_bsl s) a b c
  else do
    let x ← v256_xor s b c
    let y ← v256_and s x a
    v256_xor s y c

/-- `u16x16_from_u8x16` (simd256.rs:581-615). -/
def u16x16_from_u8x16 (s : Isa) (a : V128) : Option V256 :=
  if s.is AVX2 then some (cvtepu8_epi16 a)
  else if s.is SSE2 then do
    let zero ← v128_create_zero s
    let lo ← u8x16_zip_lo s a zero
    let hi ← u8x16_zip_hi s a zero
    return join lo hi
  else if s.is NEON then some (cvtepu8_epi16 a)
  else if s.is WASM128 then some (cvtepu8_epi16 a)
  else none

/-- `u8x16x2_zip_lo` (simd256.rs:618-626). -/
def u8x16x2_zip_lo (s : Isa) (a b : V256) : Option V256 := if s.is AVX2 then some (unpacklo8 a b) else vop2 (u8x16_zip_lo s) a b
/-- `u8x16x2_zip_hi` (simd256.rs:629-637). -/
def u8x16x2_zip_hi (s : Isa) (a b : V256) : Option V256 := if s.is AVX2 then some (unpackhi8 a b) else vop2 (u8x16_zip_hi s) a b
/-- `u64x2x2_zip_lo` (simd256.rs:684-692). -/
def u64x2x2_zip_lo (s : Isa) (a b : V256) : Option V256 := if s.is AVX2 then some (unpacklo64 a b) else vop2 (u64x2_zip_lo s) a b

/-- `v128x2_zip_lo` (simd256.rs:706-718). -/
def v128x2_zip_lo (s : Isa) (a b : V256) : Option V256 :=
  if s.is AVX2 then some (permute2x128_20 a b)
  else if s.is SSE2 || s.is NEON || s.is WASM128 then some (join a.lo b.lo)
  else none
/-- `v128x2_zip_hi` (simd256.rs:721-733). -/
def v128x2_zip_hi (s : Isa) (a b : V256) : Option V256 :=
  if s.is AVX2 then some (permute2x128_31 a b)
  else if s.is SSE2 || s.is NEON || s.is WASM128 then some (join a.hi b.hi)
  else none
/-- `u64x4_permute` (simd256.rs:736-749): AVX2 only. -/
def u64x4_permute (s : Isa) (imm : Nat) (a : V256) : Option V256 :=
  if s.is AVX2 then some (permute4x64 imm a) else none
/-- `u8x32_unzip_even` (simd256.rs:752-762). -/
def u8x32_unzip_even (s : Isa) (a b : V256) : Option V256 :=
  if s.is SSE2 then none
  else do
    let ab ← u8x16_unzip_even s a.lo a.hi
    let cd ← u8x16_unzip_even s b.lo b.hi
    return join ab cd
/-- `u64x4_unzip_even` (simd256.rs:778-790). -/
def u64x4_unzip_even (s : Isa) (a b : V256) : Option V256 :=
  if s.is AVX2 then do
    let acbd ← u64x2x2_zip_lo s a b
    u64x4_permute s 0b11011000 acbd
  else do
    let ab ← u64x2_zip_lo s a.lo a.hi
    let cd ← u64x2_zip_lo s b.lo b.hi
    return join ab cd

/-- `u16x16_mul_hi` (simd256.rs:808-816). -/
def u16x16_mul_hi (s : Isa) (a b : V256) : Option V256 := if s.is AVX2 then some (mulhi_u16 a b) else vop2 (u16x8_mul_hi s) a b
/-- `i16x16_maddubs` (simd256.rs:830-838). -/
def i16x16_maddubs (s : Isa) (a b : V256) : Option V256 := if s.is AVX2 then some (maddubs a b) else vop2 (i16x8_maddubs s) a b
/-- `u32x8_blend` (simd256.rs:841-853): AVX2 only. -/
def u32x8_blend (s : Isa) (imm : Nat) (a b : V256) : Option V256 := if s.is AVX2 then some (blend32 imm a b) else none
/-- `u8x32_blendv` (simd256.rs:857-868). -/
def u8x32_blendv (s : Isa) (a b c : V256) : Option V256 :=
  if s.is AVX2 then some (blendv a b c)
  else if s.is NEON || s.is WASM128 then none
  else vop3 (u8x16_blendv s) a b c
/-- `i16x16_madd` (simd256.rs:871-879). -/
def i16x16_madd (s : Isa) (a b : V256) : Option V256 := if s.is AVX2 then some (madd16 a b) else vop2 (i16x8_madd s) a b
/-- `u8x32_avgr` (simd256.rs:882-890). -/
def u8x32_avgr (s : Isa) (a b : V256) : Option V256 := if s.is AVX2 then some (avg_u8 a b) else vop2 (u8x16_avgr s) a b

/-! ### Masks (mask.rs) -/

/-- `mask8x16_all` (mask.rs:8-21). -/
def mask8x16_all (s : Isa) (x : V128) : Option Bool :=
  if s.is SSE2 || s.is WASM128 then do return (← u8x16_bitmask s x) == 0xffff
  else if s.is NEON then
    if s.arm then do return !(← u8x16_any_zero s x)
    else if s.aarch64 then do return (← u8x16_reduce_min s x) != 0
    else none
  else none
/-- `mask8x32_all` (mask.rs:24-34). -/
def mask8x32_all (s : Isa) (x : V256) : Option Bool :=
  if s.is AVX2 then do return (← u8x32_bitmask s x) == 0xffffffff
  else if s.is SSE2 || s.is WASM128 || s.is NEON then do mask8x16_all s (← v128_and s x.lo x.hi)
  else none
/-- `mask8x16_any` (mask.rs:37-45). -/
def mask8x16_any (s : Isa) (x : V128) : Option Bool :=
  if s.is SSE2 || s.is WASM128 then do return (← u8x16_bitmask s x) != 0
  else if s.is NEON then do return !(← v128_all_zero s x)
  else none
/-- `mask8x32_any` (mask.rs:48-58). -/
def mask8x32_any (s : Isa) (x : V256) : Option Bool :=
  if s.is AVX2 then do return (← u8x32_bitmask s x) != 0
  else if s.is SSE2 || s.is WASM128 || s.is NEON then do mask8x16_any s (← v128_or s x.lo x.hi)
  else none
/-- `u8x16_highbit_any` (mask.rs:90-103). -/
def u8x16_highbit_any (s : Isa) (x : V128) : Option Bool :=
  if s.is SSE2 || s.is WASM128 then do return (← u8x16_bitmask s x) != 0
  else if s.is NEON then
    if s.arm then do mask8x16_any s (← i8x16_lt s x (← v128_create_zero s))
    else if s.aarch64 then do return (0x80#8).ule (← u8x16_reduce_max s x)
    else none
  else none
/-- `u8x32_highbit_any` (mask.rs:106-116). -/
def u8x32_highbit_any (s : Isa) (x : V256) : Option Bool :=
  if s.is AVX2 then do return (← u8x32_bitmask s x) != 0
  else if s.is SSE2 || s.is WASM128 || s.is NEON then do u8x16_highbit_any s (← v128_or s x.lo x.hi)
  else none

/-! ### `Scalable` (scalable.rs): the operations generic code uses on V128 and V256 -/

/-- `trait Scalable<V>` (scalable.rs:7-113). -/
class Scalable (n : Nat) where
  and : Isa → Vec n → Vec n → Option (Vec n)
  or : Isa → Vec n → Vec n → Option (Vec n)
  xor : Isa → Vec n → Vec n → Option (Vec n)
  andnot : Isa → Vec n → Vec n → Option (Vec n)
  u8xn_splat : Isa → Byte → Option (Vec n)
  u32xn_splat : Isa → BitVec 32 → Option (Vec n)
  u8xn_add : Isa → Vec n → Vec n → Option (Vec n)
  u8xn_sub : Isa → Vec n → Vec n → Option (Vec n)
  u8xn_sub_sat : Isa → Vec n → Vec n → Option (Vec n)
  u32xn_sub : Isa → Vec n → Vec n → Option (Vec n)
  i8xn_add_sat : Isa → Vec n → Vec n → Option (Vec n)
  u8xn_eq : Isa → Vec n → Vec n → Option (Vec n)
  i8xn_lt : Isa → Vec n → Vec n → Option (Vec n)
  u32xn_lt : Isa → Vec n → Vec n → Option (Vec n)
  u32xn_max : Isa → Vec n → Vec n → Option (Vec n)
  u16xn_shl : Isa → Nat → Vec n → Option (Vec n)
  u16xn_shr : Isa → Nat → Vec n → Option (Vec n)
  u32xn_shr : Isa → Nat → Vec n → Option (Vec n)
  u8xn_avgr : Isa → Vec n → Vec n → Option (Vec n)
  u8x16xn_swizzle : Isa → Vec n → Vec n → Option (Vec n)
  all_zero : Isa → Vec n → Option Bool
  mask8xn_all : Isa → Vec n → Option Bool
  mask8xn_any : Isa → Vec n → Option Bool
  u8xn_highbit_any : Isa → Vec n → Option Bool

/-- `impl Scalable<V128>` (scalable.rs:115-183). -/
instance : Scalable 16 where
  and := v128_and
  or := v128_or
  xor := v128_xor
  andnot := v128_andnot
  u8xn_splat := u8x16_splat
  u32xn_splat := u32x4_splat
  u8xn_add := u8x16_add
  u8xn_sub := u8x16_sub
  u8xn_sub_sat := u8x16_sub_sat
  u32xn_sub := u32x4_sub
  i8xn_add_sat := i8x16_add_sat
  u8xn_eq := u8x16_eq
  i8xn_lt := i8x16_lt
  u32xn_lt := u32x4_lt
  u32xn_max := u32x4_max
  u16xn_shl := u16x8_shl
  u16xn_shr := u16x8_shr
  u32xn_shr := u32x4_shr
  u8xn_avgr := u8x16_avgr
  u8x16xn_swizzle := u8x16_swizzle
  all_zero := v128_all_zero
  mask8xn_all := mask8x16_all
  mask8xn_any := mask8x16_any
  u8xn_highbit_any := u8x16_highbit_any

/-- `impl Scalable<V256>` (scalable.rs:185-253). -/
instance : Scalable 32 where
  and := v256_and
  or := v256_or
  xor := v256_xor
  andnot := v256_andnot
  u8xn_splat := u8x32_splat
  u32xn_splat := u32x8_splat
  u8xn_add := u8x32_add
  u8xn_sub := u8x32_sub
  u8xn_sub_sat := u8x32_sub_sat
  u32xn_sub := u32x8_sub
  i8xn_add_sat := i8x32_add_sat
  u8xn_eq := u8x32_eq
  i8xn_lt := i8x32_lt
  u32xn_lt := u32x8_lt
  u32xn_max := u32x8_max
  u16xn_shl := u16x16_shl
  u16xn_shr := u16x16_shr
  u32xn_shr := u32x8_shr
  u8xn_avgr := u8x32_avgr
  u8x16xn_swizzle := u8x16x2_swizzle
  all_zero := v256_all_zero
  mask8xn_all := mask8x32_all
  mask8xn_any := mask8x32_any
  u8xn_highbit_any := u8x32_highbit_any

/-- `u8x16xn_lookup` (table.rs:6-21). -/
def u8x16xn_lookup {n : Nat} [Scalable n] (s : Isa) (lut x : Vec n) : Option (Vec n) :=
  if s.is SSSE3 then Scalable.u8x16xn_swizzle s lut x
  else if s.is NEON || s.is WASM128 then do
    let m ← Scalable.u8xn_splat (n := n) s 0x8f
    let idx ← Scalable.and s x m
    Scalable.u8x16xn_swizzle s lut idx
  else none

end Vs
end Simd
