import Verif.Model.Alsw
/-
Vectorised hex kernels and ASCII case conversion (crates/vsimd/src/{hex,ascii}.rs).
-/
namespace Simd

/-- `AsciiCase` (crates/vsimd/src/ascii.rs:5-11). -/
inductive AsciiCase where
  | lower | upper
deriving DecidableEq, Repr

namespace Vs
open IsaId

/-- `convert_ascii_case::<S, V, C>` (ascii.rs:14-21): `assert!(matches!(C, b'A' | b'a'))` is the first branch; `C + 0x80` is
at most `0xe1` and does not overflow; `-0x80 + 26` is the `i8` `-102`; `i8xn_splat` (scalable.rs:34) is the 8-bit `splat`. -/
def convert_ascii_case {n : Nat} [Scalable n] (C : Byte) (s : Isa) (x : Vec n) : Option (Vec n) :=
  if C == 0x41 || C == 0x61 then do
    let x1 ← Scalable.u8xn_sub s x (← Scalable.u8xn_splat s (C + 0x80))
    let x2 ← Scalable.i8xn_lt s x1 (← Scalable.u8xn_splat s (BitVec.ofInt 8 (-0x80 + 26)))
    let x3 ← Scalable.and s x2 (← Scalable.u8xn_splat s 0x20)
    Scalable.xor s x x3
  else none
/-- `to_ascii_lowercase` (ascii.rs:23-25). -/
def to_ascii_lowercase {n : Nat} [Scalable n] (s : Isa) (x : Vec n) : Option (Vec n) := convert_ascii_case 0x41 s x
/-- `to_ascii_uppercase` (ascii.rs:28-30). -/
def to_ascii_uppercase {n : Nat} [Scalable n] (s : Isa) (x : Vec n) : Option (Vec n) := convert_ascii_case 0x61 s x

/-- `UPPER_CHARSET` (hex.rs:8): "0123456789ABCDEF". -/
def UPPER_CHARSET : List Byte :=
  [0x30, 0x31, 0x32, 0x33, 0x34, 0x35, 0x36, 0x37, 0x38, 0x39, 0x41, 0x42, 0x43, 0x44, 0x45, 0x46]
/-- `LOWER_CHARSET` (hex.rs:9): "0123456789abcdef". -/
def LOWER_CHARSET : List Byte :=
  [0x30, 0x31, 0x32, 0x33, 0x34, 0x35, 0x36, 0x37, 0x38, 0x39, 0x61, 0x62, 0x63, 0x64, 0x65, 0x66]

/-- `unhex` (hex.rs:22-33). Simplification: the table is the function it tabulates. -/
def unhex (x : Byte) : Byte := parse_hex x

/-- `check_xn` (hex.rs:36-46). -/
def hex_check_xn {n : Nat} [Scalable n] (s : Isa) (x : Vec n) : Option Bool := do
  let x1 ← Scalable.u8xn_sub s x (← Scalable.u8xn_splat s (0x30 + 0x80))
  let x2 ← Scalable.u8xn_sub s (← Scalable.and s x (← Scalable.u8xn_splat s 0xdf)) (← Scalable.u8xn_splat s (0x41 + 0x80))
  let m1 ← Scalable.i8xn_lt s x1 (← Scalable.u8xn_splat s (BitVec.ofInt 8 (-118)))
  let m2 ← Scalable.i8xn_lt s x2 (← Scalable.u8xn_splat s (BitVec.ofInt 8 (-122)))
  Scalable.mask8xn_all s (← Scalable.or s m1 m2)

/-- `ENCODE_UPPER_LUT` (hex.rs:48). -/
def ENCODE_UPPER_LUT : V256 := Vec.x2 (.ofList UPPER_CHARSET)
/-- `ENCODE_LOWER_LUT` (hex.rs:49). -/
def ENCODE_LOWER_LUT : V256 := Vec.x2 (.ofList LOWER_CHARSET)

/-- `encode_bytes16` (hex.rs:52-58). -/
def encode_bytes16 (s : Isa) (x : V128) (lut : V256) : Option V256 := do
  let x ← u16x16_from_u8x16 s x
  let hi ← u16x16_shl s 8 x
  let lo ← u16x16_shr s 4 x
  let values ← v256_and s (← v256_or s hi lo) (← u8x32_splat s 0x0f)
  u8x16x2_swizzle s lut values

/-- `encode_bytes32` (hex.rs:61-76). -/
def encode_bytes32 (s : Isa) (x lut : V256) : Option (V256 × V256) := do
  let m ← u8x32_splat s 0x0f
  let hi ← v256_and s (← u16x16_shr s 4 x) m
  let lo ← v256_and s x m
  let ac ← u8x16x2_zip_lo s hi lo
  let bd ← u8x16x2_zip_hi s hi lo
  let ab ← v128x2_zip_lo s ac bd
  let cd ← v128x2_zip_hi s ac bd
  let y1 ← u8x16x2_swizzle s lut ab
  let y2 ← u8x16x2_swizzle s lut cd
  return (y1, y2)

/-- `DECODE_UZP1` halves (hex.rs:108-111). -/
def DECODE_UZP1 : V128 := .ofList
  [0x00, 0x02, 0x04, 0x06, 0x08, 0x0a, 0x0c, 0x0e, 0x80, 0x80, 0x80, 0x80, 0x80, 0x80, 0x80, 0x80]
/-- `DECODE_UZP2` halves (hex.rs:113-116). -/
def DECODE_UZP2 : V128 := .ofList
  [0x80, 0x80, 0x80, 0x80, 0x80, 0x80, 0x80, 0x80, 0x00, 0x02, 0x04, 0x06, 0x08, 0x0a, 0x0c, 0x0e]

/-- `merge_bits` (hex.rs:119-130). -/
def hex_merge_bits {n : Nat} [Scalable n] (s : Isa) (x : Vec n) : Option (Vec n) := do
  let x1 ← Scalable.u16xn_shl s 4 x
  let x2 ← Scalable.u16xn_shr s 12 x1
  Scalable.or s x1 x2

/-- `decode16` (hex.rs:133-136); `HEX_ALSW_CHECK`, `HEX_ALSW_DECODE` (hex.rs:102-103). -/
def hex_decode16 (s : Isa) (x : V128) : Option (V128 × V128) := do
  let (c1, c2) ← decode_ascii_xn s x HexAlsw.check_lut HexAlsw.decode_lut
  return (← hex_merge_bits s c2, c1)
/-- `decode32` (hex.rs:139-142); `HEX_ALSW_*_X2` (hex.rs:105-106). -/
def hex_decode32 (s : Isa) (x : V256) : Option (V256 × V256) := do
  let (c1, c2) ← decode_ascii_xn s x HexAlsw.check_lut.x2 HexAlsw.decode_lut.x2
  return (← hex_merge_bits s c2, c1)

/-- The value `ans` of `decode_ascii16` (hex.rs:149-157). -/
def decode_ascii16_ans (s : Isa) (y : V128) : Option V64 :=
  if s.is SSSE3 || s.is WASM128 then do
    let z ← u8x16_swizzle s y DECODE_UZP1
    return z.lo64
  else if s.is NEON then u8x8_unzip_even s y.lo64 y.hi64
  else none

/-- `decode_ascii16` (hex.rs:146-164). -/
def decode_ascii16 (s : Isa) (x : V128) : Option (Except Unit V64) := do
  let (y, is_invalid) ← hex_decode16 s x
  let ans ← decode_ascii16_ans s y
  if ← u8x16_highbit_any s is_invalid then return .error ()
  else return .ok ans

/-- The value `ans` of `decode_ascii32` (hex.rs:171-179). -/
def decode_ascii32_ans (s : Isa) (y : V256) : Option V128 :=
  if s.is SSSE3 || s.is WASM128 then do
    let z ← u8x16x2_swizzle s y DECODE_UZP1.x2
    u64x2_zip_lo s z.lo z.hi
  else if s.is NEON then u8x16_unzip_even s y.lo y.hi
  else none

/-- `decode_ascii32` (hex.rs:168-186). -/
def decode_ascii32 (s : Isa) (x : V256) : Option (Except Unit V128) := do
  let (y, is_invalid) ← hex_decode32 s x
  let ans ← decode_ascii32_ans s y
  if ← u8x32_highbit_any s is_invalid then return .error ()
  else return .ok ans

/-- The value `ans` of `decode_ascii32x2` (hex.rs:194-208). -/
def decode_ascii32x2_ans (s : Isa) (y1 y2 : V256) : Option V256 :=
  if s.is AVX2 then do
    let ab ← u8x16x2_swizzle s y1 DECODE_UZP1.x2
    let cd ← u8x16x2_swizzle s y2 DECODE_UZP2.x2
    let acbd ← v256_or s ab cd
    u64x4_permute s 0b11011000 acbd
  else if s.is SSSE3 || s.is WASM128 then do
    let ab ← u8x16x2_swizzle s y1 DECODE_UZP1.x2
    let cd ← u8x16x2_swizzle s y2 DECODE_UZP1.x2
    u64x4_unzip_even s ab cd
  else if s.is NEON then u8x32_unzip_even s y1 y2
  else none

/-- `decode_ascii32x2` (hex.rs:190-215). -/
def decode_ascii32x2 (s : Isa) (x0 x1 : V256) : Option (Except Unit V256) := do
  let (y1, is_invalid1) ← hex_decode32 s x0
  let (y2, is_invalid2) ← hex_decode32 s x1
  let is_invalid ← v256_or s is_invalid1 is_invalid2
  let ans ← decode_ascii32x2_ans s y1 y2
  if ← u8x32_highbit_any s is_invalid then return .error ()
  else return .ok ans

/-- `sse2::decode_nibbles` (hex.rs:224-237); `s` is always `SSE2`. -/
def sse2_decode_nibbles (x : V128) : Option (V128 × V128) := do
  let s := Isa.sse2
  let t1 ← u8x16_add s x (← u8x16_splat s (0xff - 0x39))
  let t2 ← u8x16_sub_sat s t1 (← u8x16_splat s 6)
  let t3 ← u8x16_sub s t2 (← u8x16_splat s 0xf0)
  let t4 ← v128_and s x (← u8x16_splat s 0xdf)
  let t5 ← u8x16_sub s t4 (← u8x16_splat s 0x41)
  let t6 ← u8x16_add_sat s t5 (← u8x16_splat s 10)
  let t7 ← u8x16_min s t3 t6
  let t8 ← u8x16_add_sat s t7 (← u8x16_splat s (127 - 15))
  return (t7, t8)

/-- `sse2::merge_bits` (hex.rs:241-248). -/
def sse2_merge_bits (x : V128) : Option V64 := do
  let s := Isa.sse2
  let lo ← u16x8_shr s 8 x
  let hi ← u16x8_shl s 4 x
  let t1 ← v128_or s lo hi
  let t2 ← v128_and s t1 (← u16x8_splat s 0x00ff)
  let t3 ← i16x8_packus s t2 (← v128_create_zero s)
  return t3.lo64

/-- `sse2::LOWER_OFFSET` / `UPPER_OFFSET` (hex.rs:250-251). -/
def sse2_offset : AsciiCase → V128
  | .lower => .ofList (List.replicate 16 0x27)
  | .upper => .ofList (List.replicate 16 0x07)

/-- `sse2::encode16` (hex.rs:255-275). -/
def sse2_encode16 (x offset : V128) : Option (V128 × V128) := do
  let s := Isa.sse2
  let m ← u8x16_splat s 0x0f
  let hi ← v128_and s (← u16x8_shr s 4 x) m
  let lo ← v128_and s x m
  let c1 ← u8x16_splat s 0x30
  let h1 ← u8x16_add s hi c1
  let l1 ← u8x16_add s lo c1
  let c2 ← u8x16_splat s 0x39
  let h2 ← v128_and s (← i8x16_lt s c2 h1) offset
  let l2 ← v128_and s (← i8x16_lt s c2 l1) offset
  let h3 ← u8x16_add s h1 h2
  let l3 ← u8x16_add s l1 l2
  let y1 ← u8x16_zip_lo s h3 l3
  let y2 ← u8x16_zip_hi s h3 l3
  return (y1, y2)

end Vs
end Simd
