import Verif.Model.Core
/-
SIMD vectors and the lane semantics of the CPU intrinsics used by vsimd.

The semantics follow the vendors' instruction descriptions; they are part of the trusted base.
All SIMD targets of the crates are little-endian: lane `j` of a vector of 16-bit elements consists of
byte lanes `2*j` (low) and `2*j+1` (high), and so on.
-/
namespace Simd

/-- A vector of `n` bytes (`V64` = 8, `V128` = 16, `V256` = 32; crates/vsimd/src/vector.rs:7-34).
Simplification: lanes are given by a total function; lanes with index `≥ n` have no meaning and are
never stored, reduced or mentioned in a property. -/
structure Vec (n : Nat) where
  lane : Nat → Byte

abbrev V64 := Vec 8
abbrev V128 := Vec 16
abbrev V256 := Vec 32

/-- The bytes of a vector in memory order. -/
def Vec.toList {n : Nat} (v : Vec n) : List Byte := (List.range n).map v.lane

/-- The vector with given bytes in memory order (`from_bytes`, vector.rs:143-147, 172-176, or a load). -/
def Vec.ofList {n : Nat} (bs : List Byte) : Vec n := ⟨fun i => bs.getD i 0⟩

/-- Byte `k` (little-endian) of a wider lane. -/
def byteOf {w : Nat} (x : BitVec w) (k : Nat) : Byte := x.extractLsb' (8 * k) 8

def Vec.get16 {n : Nat} (a : Vec n) (j : Nat) : BitVec 16 := a.lane (2 * j + 1) ++ a.lane (2 * j)
def Vec.get32 {n : Nat} (a : Vec n) (j : Nat) : BitVec 32 :=
  a.lane (4 * j + 3) ++ a.lane (4 * j + 2) ++ a.lane (4 * j + 1) ++ a.lane (4 * j)

/-- Vector from its 16-bit lanes. -/
def Vec.of16 {n : Nat} (f : Nat → BitVec 16) : Vec n := ⟨fun i => byteOf (f (i / 2)) (i % 2)⟩
/-- Vector from its 32-bit lanes. -/
def Vec.of32 {n : Nat} (f : Nat → BitVec 32) : Vec n := ⟨fun i => byteOf (f (i / 4)) (i % 4)⟩

/-- `to_v128x2` (vector.rs:190-194). -/
def Vec.lo (a : V256) : V128 := ⟨a.lane⟩
def Vec.hi (a : V256) : V128 := ⟨fun i => a.lane (16 + i)⟩
/-- `from_v128x2` (vector.rs:184-188). -/
def join (a b : V128) : V256 := ⟨fun i => if i < 16 then a.lane i else b.lane (i - 16)⟩
/-- `x2` (vector.rs:163-167), `double_bytes` (vector.rs:196-200). -/
def Vec.x2 (a : V128) : V256 := join a a
/-- `to_v64x2().0` (vector.rs:156-161). -/
def Vec.lo64 (a : V128) : V64 := ⟨a.lane⟩
/-- `to_v64x2().1`. -/
def Vec.hi64 (a : V128) : V64 := ⟨fun i => a.lane (8 + i)⟩

namespace Intrin
variable {n : Nat}

/-- `_mm_set1_epi8`, `vdupq_n_u8`, `u8x16_splat`. -/
def set1_8 (x : Byte) : Vec n := ⟨fun _ => x⟩
/-- `_mm_set1_epi16`, `vdupq_n_u16`, `u16x8_splat`. -/
def set1_16 (x : BitVec 16) : Vec n := .of16 fun _ => x
/-- `_mm_set1_epi32`, `vdupq_n_u32`, `u32x4_splat`. -/
def set1_32 (x : BitVec 32) : Vec n := .of32 fun _ => x
/-- `_mm_set1_epi64x`, `vdupq_n_u64`, `u64x2_splat`. -/
def set1_64 (x : BitVec 64) : Vec n := ⟨fun i => byteOf x (i % 8)⟩

/-- Lane-wise binary operation on bytes. -/
def map8 (f : Byte → Byte → Byte) (a b : Vec n) : Vec n := ⟨fun i => f (a.lane i) (b.lane i)⟩
/-- Lane-wise operations on 16-bit lanes. -/
def map16 (f : BitVec 16 → BitVec 16 → BitVec 16) (a b : Vec n) : Vec n := .of16 fun j => f (a.get16 j) (b.get16 j)
/-- Lane-wise operations on 32-bit lanes. -/
def map32 (f : BitVec 32 → BitVec 32 → BitVec 32) (a b : Vec n) : Vec n := .of32 fun j => f (a.get32 j) (b.get32 j)

/-- All ones / all zeros of a comparison. -/
def maskOf (w : Nat) (b : Bool) : BitVec w := if b then BitVec.allOnes w else 0

/-- `_mm_and_si128`, `vandq_u8`, `v128_and`. -/
def and (a b : Vec n) : Vec n := map8 (· &&& ·) a b
/-- `_mm_or_si128`, `vorrq_u8`, `v128_or`. -/
def or (a b : Vec n) : Vec n := map8 (· ||| ·) a b
/-- `_mm_xor_si128`, `veorq_u8`, `v128_xor`. -/
def xor (a b : Vec n) : Vec n := map8 (· ^^^ ·) a b
/-- `_mm_andnot_si128(a, b) = !a & b`. -/
def mm_andnot (a b : Vec n) : Vec n := map8 (fun x y => ~~~x &&& y) a b
/-- `vbicq_u8(a, b)`, `v128_andnot(a, b) = a & !b`. -/
def bic (a b : Vec n) : Vec n := map8 (fun x y => x &&& ~~~y) a b
/-- `vmvnq_u8`, `v128_not`. -/
def not (a : Vec n) : Vec n := ⟨fun i => ~~~(a.lane i)⟩

/-- `_mm_add_epi8`, `vaddq_u8`, `u8x16_add`. -/
def add8 (a b : Vec n) : Vec n := map8 (· + ·) a b
/-- `_mm_sub_epi8`, `vsubq_u8`, `u8x16_sub`. -/
def sub8 (a b : Vec n) : Vec n := map8 (· - ·) a b
/-- `_mm_sub_epi32`, `vsubq_u32`, `u32x4_sub`. -/
def sub32 (a b : Vec n) : Vec n := map32 (· - ·) a b

/-- Saturation to `i8`. -/
def satI8 (z : Int) : Byte := BitVec.ofInt 8 (max (-128) (min 127 z))
/-- `_mm_adds_epi8`, `vqaddq_s8`, `i8x16_add_sat`. -/
def adds_i8 (a b : Vec n) : Vec n := map8 (fun x y => satI8 (x.toInt + y.toInt)) a b
/-- `_mm_adds_epu8`, `vqaddq_u8`, `u8x16_add_sat`. -/
def adds_u8 (a b : Vec n) : Vec n := map8 (fun x y => BitVec.ofNat 8 (min 255 (x.toNat + y.toNat))) a b
/-- `_mm_subs_epu8`, `vqsubq_u8`, `u8x16_sub_sat`. -/
def subs_u8 (a b : Vec n) : Vec n := map8 (fun x y => BitVec.ofNat 8 (x.toNat - y.toNat)) a b

/-- `_mm_cmpeq_epi8`, `vceqq_u8`, `u8x16_eq`. -/
def eq8 (a b : Vec n) : Vec n := map8 (fun x y => maskOf 8 (x == y)) a b
/-- `_mm_cmpeq_epi32`, `vceqq_u32`, `u32x4_eq`. -/
def eq32 (a b : Vec n) : Vec n := map32 (fun x y => maskOf 32 (x == y)) a b
/-- `_mm_cmplt_epi8(a, b)`, `_mm256_cmpgt_epi8(b, a)`, `vcltq_s8`, `i8x16_lt`. -/
def lt_i8 (a b : Vec n) : Vec n := map8 (fun x y => maskOf 8 (x.slt y)) a b
/-- `_mm_cmplt_epi32`, `vcltq_s32`. -/
def lt_i32 (a b : Vec n) : Vec n := map32 (fun x y => maskOf 32 (x.slt y)) a b
/-- `vcltq_u8`, `u8x16_lt`. -/
def lt_u8 (a b : Vec n) : Vec n := map8 (fun x y => maskOf 8 (x.ult y)) a b
/-- `vcltq_u32`, `u32x4_lt`. -/
def lt_u32 (a b : Vec n) : Vec n := map32 (fun x y => maskOf 32 (x.ult y)) a b
/-- `_mm_max_epu8`, `vmaxq_u8`, `u8x16_max`. -/
def max_u8 (a b : Vec n) : Vec n := map8 (fun x y => if x.ult y then y else x) a b
/-- `_mm_max_epu32`, `vmaxq_u32`, `u32x4_max`. -/
def max_u32 (a b : Vec n) : Vec n := map32 (fun x y => if x.ult y then y else x) a b
/-- `_mm_min_epu8`, `vminq_u8`, `u8x16_min`. -/
def min_u8 (a b : Vec n) : Vec n := map8 (fun x y => if x.ult y then x else y) a b

/-- `_mm_slli_epi16`, `vshlq_n_u16`, `u16x8_shl` (immediate < 16). -/
def shl16 (k : Nat) (a : Vec n) : Vec n := .of16 fun j => a.get16 j <<< k
/-- `_mm_srli_epi16`, `vshrq_n_u16`, `u16x8_shr` (immediate < 16). -/
def shr16 (k : Nat) (a : Vec n) : Vec n := .of16 fun j => a.get16 j >>> k
/-- `_mm_slli_epi32`, `vshlq_n_u32`, `u32x4_shl` (immediate < 32). -/
def shl32 (k : Nat) (a : Vec n) : Vec n := .of32 fun j => a.get32 j <<< k
/-- `_mm_srli_epi32`, `vshrq_n_u32`, `u32x4_shr` (immediate < 32). -/
def shr32 (k : Nat) (a : Vec n) : Vec n := .of32 fun j => a.get32 j >>> k

/-- `_mm_mullo_epi16`, `vmulq_s16`, `i16x8_mul`: low half of the product. -/
def mullo16 (a b : Vec n) : Vec n := map16 (· * ·) a b
/-- `_mm_mulhi_epu16`: high half of the unsigned product. -/
def mulhi_u16 (a b : Vec n) : Vec n := map16 (fun x y => BitVec.ofNat 16 (x.toNat * y.toNat / 65536)) a b
/-- Saturation to `i16`. -/
def satI16 (z : Int) : BitVec 16 := BitVec.ofInt 16 (max (-32768) (min 32767 z))
/-- `_mm_maddubs_epi16(a, b)`: unsigned bytes of `a` times signed bytes of `b`, adjacent pairs added with
signed 16-bit saturation. -/
def maddubs (a b : Vec n) : Vec n := .of16 fun j =>
  satI16 ((a.lane (2 * j)).toNat * (b.lane (2 * j)).toInt + (a.lane (2 * j + 1)).toNat * (b.lane (2 * j + 1)).toInt)
/-- `_mm_madd_epi16(a, b)`: signed 16-bit products, adjacent pairs added (wrapping at 32 bits). -/
def madd16 (a b : Vec n) : Vec n := .of32 fun j =>
  BitVec.ofInt 32 ((a.get16 (2 * j)).toInt * (b.get16 (2 * j)).toInt + (a.get16 (2 * j + 1)).toInt * (b.get16 (2 * j + 1)).toInt)
/-- Saturation of an `i16` to `u8`. -/
def packus1 (x : BitVec 16) : Byte := BitVec.ofNat 8 (min 255 x.toInt.toNat)
/-- `_mm_packus_epi16(a, b)` (128-bit only). -/
def packus (a b : V128) : V128 := ⟨fun i => if i < 8 then packus1 (a.get16 i) else packus1 (b.get16 (i - 8))⟩
/-- `_mm_avg_epu8`, `vpavgb`, `vrhaddq_u8`, `u8x16_avgr`: rounding average. -/
def avg_u8 (a b : Vec n) : Vec n := map8 (fun x y => BitVec.ofNat 8 ((x.toNat + y.toNat + 1) / 2)) a b

/-- `_mm_shuffle_epi8`, `_mm256_shuffle_epi8`: within each 16-byte half; a set high bit of the index gives 0,
otherwise the low four bits index the half. -/
def shuffle_epi8 (a b : Vec n) : Vec n :=
  ⟨fun i => if (b.lane i).toNat < 128 then a.lane (i / 16 * 16 + (b.lane i).toNat % 16) else 0⟩
/-- `vqtbl1q_u8`, `vtbl2_u8` pair, wasm `u8x16_swizzle`: an index ≥ 16 gives 0 (written for one or two 16-byte
halves; only used on `V128`, where `i / 16 * 16 = 0`). -/
def tbl16 (a b : Vec n) : Vec n :=
  ⟨fun i => if (b.lane i).toNat < 16 then a.lane (i / 16 * 16 + (b.lane i).toNat) else 0⟩
/-- `vqtbl2q_u8` on a 32-byte table, applied to both halves of the index: an index ≥ 32 gives 0. -/
def tbl32 (a b : V256) : V256 :=
  ⟨fun i => if (b.lane i).toNat < 32 then a.lane (b.lane i).toNat else 0⟩
/-- `vrev16q_u8`: reverse the bytes in each 16-bit lane. -/
def rev16 (a : Vec n) : Vec n := ⟨fun i => a.lane (i / 2 * 2 + (1 - i % 2))⟩
/-- `vrev32q_u8`. -/
def rev32 (a : Vec n) : Vec n := ⟨fun i => a.lane (i / 4 * 4 + (3 - i % 4))⟩
/-- `vrev64q_u8`. -/
def rev64 (a : Vec n) : Vec n := ⟨fun i => a.lane (i / 8 * 8 + (7 - i % 8))⟩

/-- `_mm_unpacklo_epi8`, `_mm256_unpacklo_epi8` (per 128-bit half), `vzip1q_u8`, wasm shuffle. -/
def unpacklo8 (a b : Vec n) : Vec n :=
  ⟨fun i => if i % 2 = 0 then a.lane (i / 16 * 16 + i % 16 / 2) else b.lane (i / 16 * 16 + i % 16 / 2)⟩
/-- `_mm_unpackhi_epi8`, `_mm256_unpackhi_epi8` (per 128-bit half), `vzip2q_u8`, wasm shuffle. -/
def unpackhi8 (a b : Vec n) : Vec n :=
  ⟨fun i => if i % 2 = 0 then a.lane (i / 16 * 16 + 8 + i % 16 / 2) else b.lane (i / 16 * 16 + 8 + i % 16 / 2)⟩
/-- `_mm_unpacklo_epi64`, `_mm256_unpacklo_epi64` (per half), `[a[0], b[0]]`. -/
def unpacklo64 (a b : Vec n) : Vec n :=
  ⟨fun i => if i % 16 < 8 then a.lane (i / 16 * 16 + i % 8) else b.lane (i / 16 * 16 + i % 8)⟩
/-- `vuzp1q_u8`, `vuzpq_u8().0`, wasm shuffle: even lanes of `a` then of `b`. -/
def uzp1_128 (a b : V128) : V128 := ⟨fun i => if i < 8 then a.lane (2 * i) else b.lane (2 * (i - 8))⟩
/-- `vuzp1_u8`, `vuzp_u8().0` on 8-byte vectors. -/
def uzp1_64 (a b : V64) : V64 := ⟨fun i => if i < 4 then a.lane (2 * i) else b.lane (2 * (i - 4))⟩
/-- `_mm256_permute2x128_si256::<0x20>`: low halves of `a` and `b`. -/
def permute2x128_20 (a b : V256) : V256 := ⟨fun i => if i < 16 then a.lane i else b.lane (i - 16)⟩
/-- `_mm256_permute2x128_si256::<0x31>`: high halves of `a` and `b`. -/
def permute2x128_31 (a b : V256) : V256 := ⟨fun i => if i < 16 then a.lane (i + 16) else b.lane i⟩
/-- `_mm256_permute4x64_epi64::<IMM8>`. -/
def permute4x64 (imm : Nat) (a : V256) : V256 :=
  ⟨fun i => a.lane (imm / 4 ^ (i / 8) % 4 * 8 + i % 8)⟩
/-- `_mm256_cvtepu8_epi16`, `vmovl_u8` of both halves, wasm `extend_low/high`: zero extension. -/
def cvtepu8_epi16 (a : V128) : V256 := ⟨fun i => if i % 2 = 0 then a.lane (i / 2) else 0⟩

/-- `_mm_blend_epi16::<IMM8>`: bit `j` of the immediate selects 16-bit lane `j` of `b`. -/
def blend16 (imm : Nat) (a b : V128) : V128 :=
  ⟨fun i => if imm / 2 ^ (i / 2) % 2 = 1 then b.lane i else a.lane i⟩
/-- `_mm256_blend_epi32::<IMM8>`: bit `j` of the immediate selects 32-bit lane `j` of `b`. -/
def blend32 (imm : Nat) (a b : V256) : V256 :=
  ⟨fun i => if imm / 2 ^ (i / 4) % 2 = 1 then b.lane i else a.lane i⟩
/-- `_mm_blendv_epi8(a, b, c)`: high bit of `c` selects `b`. -/
def blendv (a b c : Vec n) : Vec n := ⟨fun i => if (c.lane i).msb then b.lane i else a.lane i⟩
/-- `vbslq_u8(a, b, c)`: bit of `a` selects `b`, else `c`. -/
def bsl (a b c : Vec n) : Vec n := ⟨fun i => (a.lane i &&& b.lane i) ||| (~~~(a.lane i) &&& c.lane i)⟩

/-- The integer whose bit `i` is `f i`, for `i < n`. -/
def bitsNat (f : Nat → Bool) : Nat → Nat
  | 0 => 0
  | n + 1 => bitsNat f n + if f n then 2 ^ n else 0
/-- Maximum of `f i` for `i < n`. -/
def maxUpTo (f : Nat → Nat) : Nat → Nat
  | 0 => 0
  | n + 1 => max (maxUpTo f n) (f n)
/-- Minimum of 255 and `f i` for `i < n`. -/
def minUpTo (f : Nat → Nat) : Nat → Nat
  | 0 => 255
  | n + 1 => min (minUpTo f n) (f n)

/-- `_mm_movemask_epi8`, `_mm256_movemask_epi8`, wasm `u8x16_bitmask`: bit `i` is the high bit of lane `i`. -/
def movemask (a : Vec n) : Nat := bitsNat (fun i => (a.lane i).msb) n
/-- `_mm_testz_si128(a, a) != 0`, wasm `!v128_any_true`. -/
def testz (a : Vec n) : Bool := (List.range n).all fun i => a.lane i == 0
/-- wasm `u8x16_all_true`. -/
def all_true (a : Vec n) : Bool := (List.range n).all fun i => a.lane i != 0
/-- `vmaxvq_u8`: maximum over the lanes. -/
def maxv (a : Vec n) : Byte := BitVec.ofNat 8 (maxUpTo (fun i => (a.lane i).toNat) n)
/-- `vminvq_u8`: minimum over the lanes. -/
def minv (a : Vec n) : Byte := BitVec.ofNat 8 (minUpTo (fun i => (a.lane i).toNat) n)
/-- `vpmax_u32(x, x)` lane 0, on the two 32-bit lanes of `x`. -/
def vpmax_u32_0 (x : V64) : BitVec 32 := if (x.get32 0).ult (x.get32 1) then x.get32 1 else x.get32 0
/-- `vpmin_u8(a, b)`: minima of adjacent pairs of `a` then `b`. -/
def vpmin_u8 (a b : V64) : V64 :=
  ⟨fun i =>
    let v := if i < 4 then a else b
    let j := if i < 4 then 2 * i else 2 * (i - 4)
    if (v.lane j).ult (v.lane (j + 1)) then v.lane j else v.lane (j + 1)⟩
/-- `vtst_u8(a, a)`. -/
def vtst_u8 (a b : Vec n) : Vec n := map8 (fun x y => maskOf 8 (x &&& y != 0)) a b

end Intrin
end Simd
