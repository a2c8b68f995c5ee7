import Verif.Model.Alsw
import Verif.Model.Heap
/-
The base64-simd crate: crates/base64-simd/src/{lib,encode,decode,check,heap,multiversion}.rs.

Mutable loop variables are arguments of recursive functions; `while` loops return the final values of the variables.
-/
namespace Simd.Base64
open Vs IsaId

/-- `STANDARD_CHARSET` (lib.rs:84). -/
def STANDARD_CHARSET : List Byte :=
  [0x41, 0x42, 0x43, 0x44, 0x45, 0x46, 0x47, 0x48, 0x49, 0x4a, 0x4b, 0x4c, 0x4d, 0x4e, 0x4f, 0x50,
   0x51, 0x52, 0x53, 0x54, 0x55, 0x56, 0x57, 0x58, 0x59, 0x5a, 0x61, 0x62, 0x63, 0x64, 0x65, 0x66,
   0x67, 0x68, 0x69, 0x6a, 0x6b, 0x6c, 0x6d, 0x6e, 0x6f, 0x70, 0x71, 0x72, 0x73, 0x74, 0x75, 0x76,
   0x77, 0x78, 0x79, 0x7a, 0x30, 0x31, 0x32, 0x33, 0x34, 0x35, 0x36, 0x37, 0x38, 0x39, 0x2b, 0x2f]
/-- `URL_SAFE_CHARSET` (lib.rs:85). -/
def URL_SAFE_CHARSET : List Byte :=
  [0x41, 0x42, 0x43, 0x44, 0x45, 0x46, 0x47, 0x48, 0x49, 0x4a, 0x4b, 0x4c, 0x4d, 0x4e, 0x4f, 0x50,
   0x51, 0x52, 0x53, 0x54, 0x55, 0x56, 0x57, 0x58, 0x59, 0x5a, 0x61, 0x62, 0x63, 0x64, 0x65, 0x66,
   0x67, 0x68, 0x69, 0x6a, 0x6b, 0x6c, 0x6d, 0x6e, 0x6f, 0x70, 0x71, 0x72, 0x73, 0x74, 0x75, 0x76,
   0x77, 0x78, 0x79, 0x7a, 0x30, 0x31, 0x32, 0x33, 0x34, 0x35, 0x36, 0x37, 0x38, 0x39, 0x2d, 0x5f]

/-- `Kind` (lib.rs:94-97). -/
inductive Kind where
  | standard | urlSafe
deriving DecidableEq, Repr
/-- `Extra` (lib.rs:106-110). -/
inductive Extra where
  | pad | noPad | forgiving
deriving DecidableEq, Repr
/-- `Config` (lib.rs:100-103). -/
structure Config where
  kind : Kind
  extra : Extra
deriving DecidableEq, Repr

/-- `Extra::padding` (lib.rs:116-122). -/
def Extra.padding : Extra → Bool
  | .pad => true
  | .noPad => false
  | .forgiving => true
/-- `Extra::forgiving` (lib.rs:126-132). -/
def Extra.isForgiving : Extra → Bool
  | .pad => false
  | .noPad => false
  | .forgiving => true

/-- `STANDARD` (lib.rs:136-141). -/
def STANDARD : Config := ⟨.standard, .pad⟩
/-- `URL_SAFE` (lib.rs:144-149). -/
def URL_SAFE : Config := ⟨.urlSafe, .pad⟩
/-- `STANDARD_NO_PAD` (lib.rs:152-157). -/
def STANDARD_NO_PAD : Config := ⟨.standard, .noPad⟩
/-- `URL_SAFE_NO_PAD` (lib.rs:160-165). -/
def URL_SAFE_NO_PAD : Config := ⟨.urlSafe, .noPad⟩
/-- `STANDARD_FORGIVING` (lib.rs:167-172). -/
def STANDARD_FORGIVING : Config := ⟨.standard, .forgiving⟩

/-- `charset` (lib.rs:178-183, encode.rs:83-86). -/
def charset : Kind → List Byte
  | .standard => STANDARD_CHARSET
  | .urlSafe => URL_SAFE_CHARSET

/-- `u32::from_be_bytes` / `u64::from_be_bytes`. -/
def ofBE (w : Nat) (bs : List Byte) : BitVec w := bs.foldl (fun a b => (a <<< 8) ||| b.zeroExtend w) 0
/-- `to_be_bytes` of a `8 * n`-bit integer. -/
def toBE {w : Nat} (n : Nat) (x : BitVec w) : List Byte := (List.range n).map fun i => x.extractLsb' (8 * (n - 1 - i)) 8

/-! ### encode.rs -/

/-- `encoded_length_unchecked` (encode.rs:11-20), with overflow-checked arithmetic (`none` = overflow). -/
def encoded_length_unchecked (P : Plat) (len : Nat) (config : Config) : Option Nat :=
  let extra := len % 3
  if extra = 0 then P.mulU (len / 3) 4
  else if config.extra.padding then do P.addU (← P.mulU (len / 3) 4) 4
  else do P.addU (← P.addU (← P.mulU (len / 3) 4) extra) 1

/-- `encode_bits24` (encode.rs:23-32). -/
def encode_bits24 (src dst : Ptr) (charset : List Byte) : Prog Unit := do
  let b0 ← rd src 0
  let b1 ← rd src 1
  let b2 ← rd src 2
  let x : BitVec 32 := ofBE 32 [0, b0, b1, b2]
  forFrom (fun i => do
    let bits := (x >>> (18 - i * 6)) &&& 0x3f
    let y ← tread charset bits.toNat
    wrt dst i y) 0 4

/-- `encode_bits48` (encode.rs:35-44). -/
def encode_bits48 (src dst : Ptr) (charset : List Byte) : Prog Unit := do
  let x : BitVec 64 := ofBE 64 (← loadBytes src 8)
  forFrom (fun i => do
    let bits := (x >>> (58 - i * 6)) &&& 0x3f
    let y ← tread charset bits.toNat
    wrt dst i y) 0 8

/-- `encode_extra` (encode.rs:47-76). -/
def encode_extra (extra : Nat) (src dst : Ptr) (charset : List Byte) (padding : Bool) : Prog Unit :=
  match extra with
  | 0 => pure ()
  | 1 => do
    let x ← rd src 0
    let y1 ← tread charset (x >>> 2).toNat
    let y2 ← tread charset ((x <<< 6) >>> 2).toNat
    wrt dst 0 y1
    wrt dst 1 y2
    if padding then do
      wrt dst 2 0x3d
      wrt dst 3 0x3d
    else pure ()
  | 2 => do
    let x1 ← rd src 0
    let x2 ← rd src 1
    let y1 ← tread charset (x1 >>> 2).toNat
    let y2 ← tread charset (((x1 <<< 6) >>> 2) ||| (x2 >>> 4)).toNat
    let y3 ← tread charset ((x2 <<< 4) >>> 2).toNat
    wrt dst 0 y1
    wrt dst 1 y2
    wrt dst 2 y3
    if padding then wrt dst 3 0x3d else pure ()
  | _ => .ub

/-- The inner loop `while i < L` of `encode_fallback` (encode.rs:90-96). -/
def encode_inner (charset : List Byte) : Nat → Ptr → Ptr → Prog (Ptr × Ptr)
  | 0, src, dst => pure (src, dst)
  | k + 1, src, dst => do
    encode_bits48 src dst charset
    padd src 6
    padd dst 8
    encode_inner charset k (src.add 6) (dst.add 8)

/-- First loop of `encode_fallback` (encode.rs:88-98), `L = 4`. -/
def encode_loop24 (charset : List Byte) (src dst : Ptr) (len : Nat) : Prog (Ptr × Ptr × Nat) :=
  if 4 * 6 + 2 ≤ len then do
    let (src, dst) ← encode_inner charset 4 src dst
    encode_loop24 charset src dst (len - 4 * 6)
  else pure (src, dst, len)
termination_by len

/-- Second loop of `encode_fallback` (encode.rs:100-105). -/
def encode_loop6 (charset : List Byte) (src dst : Ptr) (len : Nat) : Prog (Ptr × Ptr × Nat) :=
  if 6 + 2 ≤ len then do
    encode_bits48 src dst charset
    padd src 6
    padd dst 8
    encode_loop6 charset (src.add 6) (dst.add 8) (len - 6)
  else pure (src, dst, len)
termination_by len

/-- Third loop of `encode_fallback` (encode.rs:108-112). -/
def encode_loop3 (charset : List Byte) (end_ : Nat) (src dst : Ptr) : Prog (Ptr × Ptr) :=
  if src.off < end_ then do
    encode_bits24 src dst charset
    padd src 3
    padd dst 4
    encode_loop3 charset end_ (src.add 3) (dst.add 4)
  else pure (src, dst)
termination_by end_ - src.off
decreasing_by simp only [Ptr.add]; omega

/-- `encode_fallback` (encode.rs:79-116). -/
def encode_fallback (src : Ptr) (len : Nat) (dst : Ptr) (config : Config) : Prog Unit := do
  let padding := config.extra.padding
  let cs := charset config.kind
  let (src, dst, len) ← encode_loop24 cs src dst len
  let (src, dst, len) ← encode_loop6 cs src dst len
  padd src (len / 3 * 3)
  let (src, dst) ← encode_loop3 cs (src.off + len / 3 * 3) src dst
  encode_extra (len % 3) src dst cs padding

/-- `SPLIT_SHUFFLE` (encode.rs:168-173). -/
def SPLIT_SHUFFLE : V256 := .ofList
  [0x05, 0x04, 0x06, 0x05, 0x08, 0x07, 0x09, 0x08, 0x0b, 0x0a, 0x0c, 0x0b, 0x0e, 0x0d, 0x0f, 0x0e,
   0x01, 0x00, 0x02, 0x01, 0x04, 0x03, 0x05, 0x04, 0x07, 0x06, 0x08, 0x07, 0x0a, 0x09, 0x0b, 0x0a]

/-- `split_bits_x2` (encode.rs:176-225); `u32::from_le_bytes` constants are written as numbers. -/
def split_bits_x2 (s : Isa) (x : V256) : Option V256 := do
  let x0 ← u8x16x2_swizzle s x SPLIT_SHUFFLE
  if s.is SSE2 then do
    let m1 ← u32x8_splat s 0x0fc0fc00
    let x1 ← v256_and s x0 m1
    let m2 ← u32x8_splat s 0x003f03f0
    let x2 ← v256_and s x0 m2
    let m3 ← u32x8_splat s 0x04000040
    let x3 ← u16x16_mul_hi s x1 m3
    let m4 ← u32x8_splat s 0x01000010
    let x4 ← i16x16_mul_lo s x2 m4
    v256_or s x3 x4
  else if s.is NEON || s.is WASM128 then do
    let m1 ← u32x8_splat s 0x0000fc00
    let x1 ← u16x16_shr s 10 (← v256_and s x0 m1)
    let m2 ← u32x8_splat s 0x000003f0
    let x2 ← u16x16_shl s 4 (← v256_and s x0 m2)
    let m3 ← u32x8_splat s 0x0fc00000
    let x3 ← u16x16_shr s 6 (← v256_and s x0 m3)
    let m4 ← u32x8_splat s 0x003f0000
    let x4 ← u16x16_shl s 8 (← v256_and s x0 m4)
    v256_or s (← v256_or s x1 x2) (← v256_or s x3 x4)
  else none

/-- `split_bits_x1` (encode.rs:228-268). -/
def split_bits_x1 (s : Isa) (x : V128) : Option V128 := do
  let x0 ← u8x16_swizzle s x SPLIT_SHUFFLE.hi
  if s.is SSE2 then do
    let m1 ← u32x4_splat s 0x0fc0fc00
    let x1 ← v128_and s x0 m1
    let m2 ← u32x4_splat s 0x003f03f0
    let x2 ← v128_and s x0 m2
    let m3 ← u32x4_splat s 0x04000040
    let x3 ← u16x8_mul_hi s x1 m3
    let m4 ← u32x4_splat s 0x01000010
    let x4 ← i16x8_mul_lo s x2 m4
    v128_or s x3 x4
  else if s.is NEON || s.is WASM128 then do
    let m1 ← u32x4_splat s 0x0000fc00
    let x1 ← u16x8_shr s 10 (← v128_and s x0 m1)
    let m2 ← u32x4_splat s 0x000003f0
    let x2 ← u16x8_shl s 4 (← v128_and s x0 m2)
    let m3 ← u32x4_splat s 0x0fc00000
    let x3 ← u16x8_shr s 6 (← v128_and s x0 m3)
    let m4 ← u32x4_splat s 0x003f0000
    let x4 ← u16x8_shl s 8 (← v128_and s x0 m4)
    v128_or s (← v128_or s x1 x2) (← v128_or s x3 x4)
  else none

/-- `encoding_shift` (encode.rs:271-289). -/
def encoding_shift (charset : List Byte) : List Byte :=
  let lut := List.replicate 16 (0x80 : Byte)
  let lut := lut.set 13 0x41
  let lut := lut.set 0 (0x61 - 26)
  let lut := (List.range 10).foldl (fun lut i => lut.set (i + 1) (0x30 - 52)) lut
  let lut := lut.set 11 (charset.getD 62 0 - 62)
  lut.set 12 (charset.getD 63 0 - 63)

/-- `STANDARD_ENCODING_SHIFT`, `URL_SAFE_ENCODING_SHIFT` (encode.rs:291-292). -/
def ENCODING_SHIFT (kind : Kind) : V128 := .ofList (encoding_shift (charset kind))
/-- `STANDARD_ENCODING_SHIFT_X2`, `URL_SAFE_ENCODING_SHIFT_X2` (encode.rs:294-295). -/
def ENCODING_SHIFT_X2 (kind : Kind) : V256 := (ENCODING_SHIFT kind).x2

/-- `encode_values` (encode.rs:298-320). -/
def encode_values {n : Nat} [Scalable n] (s : Isa) (x shift_lut : Vec n) : Option (Vec n) := do
  let x1 ← Scalable.u8xn_sub_sat s x (← Scalable.u8xn_splat s 51)
  let x2 ← Scalable.i8xn_lt s x (← Scalable.u8xn_splat s 26)
  let x3 ← Scalable.and s x2 (← Scalable.u8xn_splat s 13)
  let x4 ← Scalable.or s x1 x3
  let shift ← Scalable.u8x16xn_swizzle s shift_lut x4
  Scalable.u8xn_add s x shift

/-- `encode_bytes24` (encode.rs:323-331). -/
def encode_bytes24 (s : Isa) (x shift_lut : V256) : Option V256 := do
  let values ← split_bits_x2 s x
  encode_values s values shift_lut

/-- `encode_bytes12` (encode.rs:334-342). -/
def encode_bytes12 (s : Isa) (x shift_lut : V128) : Option V128 := do
  let values ← split_bits_x1 s x
  encode_values s values shift_lut

/-- The loop `for _ in 0..2` of `encode_simd` (encode.rs:135-140); `len -= 3` panics on underflow. -/
def encode_head (charset : List Byte) : Nat → Ptr → Ptr → Nat → Prog (Ptr × Ptr × Nat)
  | 0, src, dst, len => pure (src, dst, len)
  | k + 1, src, dst, len => do
    encode_bits24 src dst charset
    padd src 3
    padd dst 4
    assert (3 ≤ len)
    encode_head charset k (src.add 3) (dst.add 4) (len - 3)

/-- The 24-byte loop of `encode_simd` (encode.rs:142-149). -/
def encode_loop_x2 (s : Isa) (shift_lut : V256) (src dst : Ptr) (len : Nat) : Prog (Ptr × Ptr × Nat) :=
  if 24 + 4 ≤ len then do
    let x ← v256_load s (← psub src 4)
    let y ← liftO (encode_bytes24 s x shift_lut)
    v256_store s dst y
    padd src 24
    padd dst 32
    encode_loop_x2 s shift_lut (src.add 24) (dst.add 32) (len - 24)
  else pure (src, dst, len)
termination_by len

/-- First part of `encode_simd` (encode.rs:129-150). -/
def encode_simd1 (s : Isa) (src dst : Ptr) (len : Nat) (kind : Kind) : Prog (Ptr × Ptr × Nat) :=
  if 6 + 24 + 4 ≤ len then do
    let (src, dst, len) ← encode_head (charset kind) 2 src dst len
    encode_loop_x2 s (ENCODING_SHIFT_X2 kind) src dst len
  else pure (src, dst, len)

/-- Second part of `encode_simd` (encode.rs:152-164). -/
def encode_simd2 (s : Isa) (src dst : Ptr) (len : Nat) (kind : Kind) : Prog (Ptr × Ptr × Nat) :=
  if 12 + 4 ≤ len then do
    let x ← v128_load s src
    let y ← liftO (encode_bytes12 s x (ENCODING_SHIFT kind))
    v128_store s dst y
    padd src 12
    padd dst 16
    pure (src.add 12, dst.add 16, len - 12)
  else pure (src, dst, len)

/-- `encode_simd` (encode.rs:119-166). -/
def encode_simd (s : Isa) (src : Ptr) (len : Nat) (dst : Ptr) (config : Config) : Prog Unit := do
  let (src, dst, len) ← encode_simd1 s src dst len config.kind
  let (src, dst, len) ← encode_simd2 s src dst len config.kind
  encode_fallback src len dst config

/-! ### decode.rs -/

/-- `decode_table` (decode.rs:16-24). -/
def decode_table (charset : List Byte) : List Byte :=
  (List.range charset.length).foldl (fun t i => t.set (charset.getD i 0).toNat (BitVec.ofNat 8 i)) (List.replicate 256 0xff)

/-- `STANDARD_DECODE_TABLE`, `URL_SAFE_DECODE_TABLE` (decode.rs:26-27). -/
def table (kind : Kind) : List Byte := decode_table (charset kind)

/-- `count_pad` (decode.rs:38-50); `src.len() - 1` and `src.len() - 2` panic on underflow. -/
def count_pad (src : Slice) : Prog Nat := do
  assert (2 ≤ src.len)
  let last1 ← rd src.ptr (src.len - 1)
  let last2 ← rd src.ptr (src.len - 2)
  return if last1 = 0x3d then (if last2 = 0x3d then 2 else 1) else 0

/-- The computation of `n` in `decoded_length` (decode.rs:35-66). -/
def data_length (src : Slice) (config : Config) : Prog Nat :=
  match config.extra with
  | .pad => do
    ensure (src.len % 4 == 0)
    return src.len - (← count_pad src)
  | .noPad => pure src.len
  | .forgiving =>
    if src.len % 4 = 0 then do
      return src.len - (← count_pad src)
    else pure src.len

/-- `decoded_length` (decode.rs:30-77): number of data characters and number of bytes. -/
def decoded_length (src : Slice) (config : Config) : Prog (Nat × Nat) :=
  if src.len = 0 then pure (0, 0)
  else do
    let n ← data_length src config
    match n % 4 with
    | 0 => pure (n, n / 4 * 3)
    | 1 => .err
    | 2 => pure (n, n / 4 * 3 + 1)
    | 3 => pure (n, n / 4 * 3 + 2)
    | _ => .ub

/-- `decode_ascii8::<WRITE>` (decode.rs:80-103). `dst` is `none` when `WRITE` is false. -/
def decode_ascii8 (src : Ptr) (dst : Option Ptr) (table : List Byte) : Prog Unit := do
  let (y, flag) ← foldFrom (fun i (st : BitVec 64 × Byte) => do
    let x ← rd src i
    let bits ← tread table x.toNat
    pure (if dst.isSome then st.1 ||| (bits.zeroExtend 64 <<< (58 - i * 6)) else st.1, st.2 ||| bits)) 0 8 (0, 0)
  match dst with
  | some dst => storeBytes dst (toBE 8 y)
  | none => pure ()
  ensure (flag != 0xff)

/-- `decode_ascii4::<WRITE>` (decode.rs:106-132). -/
def decode_ascii4 (src : Ptr) (dst : Option Ptr) (table : List Byte) : Prog Unit := do
  let (y, flag) ← foldFrom (fun i (st : BitVec 32 × Byte) => do
    let x ← rd src i
    let bits ← tread table x.toNat
    pure (if dst.isSome then st.1 ||| (bits.zeroExtend 32 <<< (18 - i * 6)) else st.1, st.2 ||| bits)) 0 4 (0, 0)
  match dst with
  | some dst => do
    let y := toBE 4 y
    wrt dst 0 (y.getD 1 0)
    wrt dst 1 (y.getD 2 0)
    wrt dst 2 (y.getD 3 0)
  | none => pure ()
  ensure (flag != 0xff)

/-- `decode_extra::<WRITE>` (decode.rs:135-172). -/
def decode_extra (extra : Nat) (src : Ptr) (dst : Option Ptr) (table : List Byte) (forgiving : Bool) : Prog Unit :=
  match extra with
  | 0 => pure ()
  | 1 => .ub
  | 2 => do
    let xs ← loadBytes src 2
    let y1 ← tread table (xs.getD 0 0).toNat
    let y2 ← tread table (xs.getD 1 0).toNat
    ensure ((y1 ||| y2) != 0xff && (forgiving || (y2 &&& 0x0f) == 0))
    match dst with
    | some dst => wrt dst 0 ((y1 <<< 2) ||| (y2 >>> 4))
    | none => pure ()
  | 3 => do
    let xs ← loadBytes src 3
    let y1 ← tread table (xs.getD 0 0).toNat
    let y2 ← tread table (xs.getD 1 0).toNat
    let y3 ← tread table (xs.getD 2 0).toNat
    ensure ((y1 ||| y2 ||| y3) != 0xff && (forgiving || (y3 &&& 0x03) == 0))
    match dst with
    | some dst => do
      wrt dst 0 ((y1 <<< 2) ||| (y2 >>> 4))
      wrt dst 1 ((y2 <<< 4) ||| (y3 >>> 2))
    | none => pure ()
  | _ => .ub

/-- First loop of `decode_fallback` (decode.rs:190-195). -/
def decode_loop8 (table : List Byte) (src dst : Ptr) (n : Nat) : Prog (Ptr × Ptr × Nat) :=
  if 11 ≤ n then do
    decode_ascii8 src (some dst) table
    padd src 8
    padd dst 6
    decode_loop8 table (src.add 8) (dst.add 6) (n - 8)
  else pure (src, dst, n)
termination_by n

/-- Second loop of `decode_fallback` (decode.rs:198-202). -/
def decode_loop4 (table : List Byte) (end_ : Nat) (src dst : Ptr) : Prog (Ptr × Ptr) :=
  if src.off < end_ then do
    decode_ascii4 src (some dst) table
    padd src 4
    padd dst 3
    decode_loop4 table end_ (src.add 4) (dst.add 3)
  else pure (src, dst)
termination_by end_ - src.off
decreasing_by simp only [Ptr.add]; omega

/-- `decode_fallback` (decode.rs:175-206). -/
def decode_fallback (src dst : Ptr) (n : Nat) (config : Config) : Prog Unit := do
  let forgiving := config.extra.isForgiving
  let table := table config.kind
  let (src, dst, n) ← decode_loop8 table src dst n
  padd src (n / 4 * 4)
  let (src, dst) ← decode_loop4 table (src.off + n / 4 * 4) src dst
  decode_extra (n % 4) src (some dst) table forgiving

/-- `StandardAlsw` or `UrlSafeAlsw` (alsw.rs:9-83). -/
def alsw : Kind → AlswSpec
  | .standard => StandardAlsw
  | .urlSafe => UrlSafeAlsw
/-- `STANDARD_ALSW_CHECK_X2`, `URL_SAFE_ALSW_CHECK_X2` (alsw.rs:85, 88). -/
def ALSW_CHECK_X2 (kind : Kind) : AlswLut 32 := (alsw kind).check_lut.x2
/-- `STANDARD_ALSW_DECODE_X2`, `URL_SAFE_ALSW_DECODE_X2` (alsw.rs:86, 89). -/
def ALSW_DECODE_X2 (kind : Kind) : AlswLut 32 := (alsw kind).decode_lut.x2

/-- The `SHUFFLE` constant of `merge_bits_x2` (decode.rs:274-277). -/
def MERGE_SHUFFLE : V256 := Vec.x2 (.ofList
  [0x02, 0x01, 0x00, 0x06, 0x05, 0x04, 0x0a, 0x09, 0x08, 0x0e, 0x0d, 0x0c, 0x80, 0x80, 0x80, 0x80])

/-- The value `y` of `merge_bits_x2` (decode.rs:244-272). -/
def merge_bits_y (s : Isa) (x : V256) : Option V256 :=
  if s.is SSSE3 then do
    let m1 ← u16x16_splat s 0x0140
    let x1 ← i16x16_maddubs s x m1
    let m2 ← u32x8_splat s 0x00011000
    i16x16_madd s x1 m2
  else if s.is NEON || s.is WASM128 then do
    let m1 ← u32x8_splat s 0x003f003f
    let x1 ← v256_and s x m1
    let m2 ← u32x8_splat s 0x3f003f00
    let x2 ← v256_and s x m2
    let x3 ← v256_or s (← u32x8_shl s 18 x1) (← u32x8_shr s 10 x1)
    let x4 ← v256_or s (← u32x8_shl s 4 x2) (← u32x8_shr s 24 x2)
    let mask ← u32x8_splat s 0x00ffffff
    v256_and s (← v256_or s x3 x4) mask
  else none

/-- `merge_bits_x2` (decode.rs:241-280). -/
def merge_bits_x2 (s : Isa) (x : V256) : Option V256 := do
  let y ← merge_bits_y s x
  u8x16x2_swizzle s y MERGE_SHUFFLE

/-- `decode_ascii32` (decode.rs:283-288). -/
def decode_ascii32 (s : Isa) (x : V256) (check decode : AlswLut 32) : Option (Except Unit V256) := do
  let (c1, c2) ← decode_ascii_xn s x check decode
  let y ← merge_bits_x2 s c2
  if ← u8x32_highbit_any s c1 then return .error () else return .ok y

/-- The loop of `decode_simd` (decode.rs:224-235). -/
def decode_loop32 (s : Isa) (check_lut decode_lut : AlswLut 32) (src dst : Ptr) (n : Nat) : Prog (Ptr × Ptr × Nat) :=
  if 38 ≤ n then do
    let x ← v256_load s src
    let y ← liftR (decode_ascii32 s x check_lut decode_lut)
    v128_store s dst y.lo
    padd dst 12
    v128_store s (dst.add 12) y.hi
    padd src 32
    padd dst 24
    decode_loop32 s check_lut decode_lut (src.add 32) (dst.add 24) (n - 32)
  else pure (src, dst, n)
termination_by n

/-- `decode_simd` (decode.rs:209-238). -/
def decode_simd (s : Isa) (src dst : Ptr) (n : Nat) (config : Config) : Prog Unit := do
  let (src, dst, n) ← decode_loop32 s (ALSW_CHECK_X2 config.kind) (ALSW_DECODE_X2 config.kind) src dst n
  decode_fallback src dst n config

/-! ### check.rs -/

/-- First loop of `check_fallback` (check.rs:24-28). -/
def check_loop8 (table : List Byte) (src : Ptr) (n : Nat) : Prog (Ptr × Nat) :=
  if 11 ≤ n then do
    decode_ascii8 src none table
    padd src 8
    check_loop8 table (src.add 8) (n - 8)
  else pure (src, n)
termination_by n

/-- Second loop of `check_fallback` (check.rs:30-34). -/
def check_loop4 (table : List Byte) (src : Ptr) (n : Nat) : Prog (Ptr × Nat) :=
  if 4 ≤ n then do
    decode_ascii4 src none table
    padd src 4
    check_loop4 table (src.add 4) (n - 4)
  else pure (src, n)
termination_by n

/-- `check_fallback` (check.rs:13-38). -/
def check_fallback (src : Ptr) (n : Nat) (config : Config) : Prog Unit := do
  let forgiving := config.extra.isForgiving
  let table := table config.kind
  let (src, n) ← check_loop8 table src n
  let (src, n) ← check_loop4 table src n
  decode_extra n src none table forgiving

/-- The loop of `check_simd` (check.rs:56-62); `check_ascii32` (check.rs:69-71) is `check_ascii_xn`. -/
def check_loop32 (s : Isa) (check_lut : AlswLut 32) (src : Ptr) (n : Nat) : Prog (Ptr × Nat) :=
  if 38 ≤ n then do
    let x ← v256_load s src
    let is_valid ← liftO (check_ascii_xn s x check_lut)
    ensure is_valid
    padd src 32
    check_loop32 s check_lut (src.add 32) (n - 32)
  else pure (src, n)
termination_by n

/-- `check_simd` (check.rs:41-66). -/
def check_simd (s : Isa) (src : Ptr) (n : Nat) (config : Config) : Prog Unit := do
  let (src, n) ← check_loop32 s (ALSW_CHECK_X2 config.kind) src n
  check_fallback src n config

/-! ### multiversion.rs: implementations reachable through `auto` -/

/-- Targets of `multiversion::{encode, decode, check}` (multiversion.rs:3-28). -/
def targets : List Isa := [.avx2, .ssse3, .neon32, .neon64, .wasm128]

/-- `multiversion::encode::auto` resolved to implementation `i` (`none` = fallback). -/
def encode_auto (i : Option Isa) (src : Ptr) (len : Nat) (dst : Ptr) (config : Config) : Prog Unit :=
  match i with
  | none => encode_fallback src len dst config
  | some s => encode_simd s src len dst config
/-- `multiversion::decode::auto` resolved to implementation `i`. -/
def decode_auto (i : Option Isa) (src dst : Ptr) (n : Nat) (config : Config) : Prog Unit :=
  match i with
  | none => decode_fallback src dst n config
  | some s => decode_simd s src dst n config
/-- `multiversion::check::auto` resolved to implementation `i`. -/
def check_auto (i : Option Isa) (src : Ptr) (n : Nat) (config : Config) : Prog Unit :=
  match i with
  | none => check_fallback src n config
  | some s => check_simd s src n config

/-! ### lib.rs -/

/-- `Base64::encoded_length` (lib.rs:191-194); `none` is a panic. -/
def encoded_length (P : Plat) (config : Config) (n : Nat) : Option Nat :=
  if n ≤ P.usizeMax / 2 then encoded_length_unchecked P n config else none

/-- `Base64::estimated_decoded_length` (lib.rs:201-203). -/
def estimated_decoded_length (P : Plat) (n : Nat) : Option Nat := do
  P.mulU (← P.addU (n / 4) (if n % 4 ≠ 0 then 1 else 0)) 3

/-- `Base64::decoded_length` (lib.rs:212-215). -/
def decoded_length_pub (config : Config) (data : Slice) : Prog Nat := do
  let (_, m) ← decoded_length data config
  return m

/-- `Base64::check` (lib.rs:222-225). -/
def check (i : Option Isa) (config : Config) (data : Slice) : Prog Unit := do
  let (n, _) ← decoded_length data config
  check_auto i data.ptr n config

/-- `Base64::encode` (lib.rs:232-243). -/
def encode (P : Plat) (i : Option Isa) (config : Config) (src dst : Slice) : Prog Slice := do
  let m ← liftO (encoded_length_unchecked P src.len config)
  ensure (dst.len ≥ m)
  encode_auto i src.ptr src.len dst.ptr config
  return ⟨dst.ptr, m⟩

/-- `Base64::encode_as_str` (lib.rs:250-253): `from_utf8_unchecked_mut` is the identity on bytes. -/
def encode_as_str (P : Plat) (i : Option Isa) (config : Config) (src dst : Slice) : Prog Slice := do
  let ans ← encode P i config src dst
  pure ans

/-- `Base64::decode` (lib.rs:262-273). -/
def decode (i : Option Isa) (config : Config) (src dst : Slice) : Prog Slice := do
  let (n, m) ← decoded_length src config
  ensure (dst.len ≥ m)
  decode_auto i src.ptr dst.ptr n config
  return ⟨dst.ptr, m⟩

/-- `Base64::decode_inplace` (lib.rs:280-290). -/
def decode_inplace (i : Option Isa) (config : Config) (data : Slice) : Prog Slice := do
  let (n, m) ← decoded_length data config
  decode_auto i data.ptr data.ptr n config
  return ⟨data.ptr, m⟩

/-! ### heap.rs -/

/-- `encode_to_boxed_str` (heap.rs:17-36). -/
def encode_to_boxed_str (P : Plat) (i : Option Isa) (config : Config) (data : Slice) : Prog Slice :=
  if data.len = 0 then box_empty
  else do
    let m ← liftO (encoded_length_unchecked P data.len config)
    assert (m ≤ P.usizeMax / 2)
    let buf ← alloc_uninit_bytes P m
    encode_auto i data.ptr data.len buf.ptr config
    assume_init buf

/-- `encode_append_vec` (heap.rs:39-59). -/
def encode_append_vec (P : Plat) (extra : Nat) (i : Option Isa) (config : Config) (src : Slice) (buf : RVec) : Prog RVec :=
  if src.len = 0 then pure buf
  else do
    let m ← liftO (encoded_length_unchecked P src.len config)
    assert (m ≤ P.usizeMax / 2)
    let buf ← buf.reserve_exact P extra m
    let prev_len := buf.len
    padd ⟨buf.buf, 0⟩ prev_len
    encode_auto i src.ptr src.len ⟨buf.buf, prev_len⟩ config
    buf.set_len (← liftO (P.addU prev_len m))

/-- `decode_to_boxed_bytes` (heap.rs:62-81). -/
def decode_to_boxed_bytes (P : Plat) (i : Option Isa) (config : Config) (data : Slice) : Prog Slice :=
  if data.len = 0 then box_empty
  else do
    let (n, m) ← decoded_length data config
    let buf ← alloc_uninit_bytes P m
    decode_auto i data.ptr buf.ptr n config
    assume_init buf

/-- `decode_append_vec` (heap.rs:84-102); returns the updated vector together with the result. -/
def decode_append_vec (P : Plat) (extra : Nat) (i : Option Isa) (config : Config) (src : Slice) (buf : RVec) :
    Prog (RVec × Except Unit Unit) :=
  if src.len = 0 then pure (buf, .ok ())
  else do
    match ← (decoded_length src config).attempt with
    | none => pure (buf, .error ())
    | some (n, m) =>
      let buf ← buf.reserve_exact P extra m
      let prev_len := buf.len
      padd ⟨buf.buf, 0⟩ prev_len
      match ← (decode_auto i src.ptr ⟨buf.buf, prev_len⟩ n config).attempt with
      | none => pure (buf, .error ())
      | some _ =>
        let buf ← buf.set_len (← liftO (P.addU prev_len m))
        pure (buf, .ok ())

/-- `encode_to_string` (lib.rs:328-330) = `encode_type::<String>` (lib.rs:295-297, heap.rs:148-154). -/
def encode_to_string (P : Plat) (i : Option Isa) (config : Config) (src : Slice) : Prog RVec := do
  return .ofBox (← encode_to_boxed_str P i config src)
/-- `decode_to_vec` (lib.rs:339-341) = `decode_type::<Vec<u8>>` (lib.rs:304-306, heap.rs:113-119). -/
def decode_to_vec (P : Plat) (i : Option Isa) (config : Config) (src : Slice) : Prog RVec := do
  return .ofBox (← decode_to_boxed_bytes P i config src)
/-- `encode_append::<Vec<u8>>`, `::<String>` (lib.rs:310-312, heap.rs:157-170). -/
def encode_append (P : Plat) (extra : Nat) (i : Option Isa) (config : Config) (src : Slice) (dst : RVec) : Prog RVec :=
  encode_append_vec P extra i config src dst
/-- `decode_append::<Vec<u8>>` (lib.rs:319-321, heap.rs:173-178). -/
def decode_append (P : Plat) (extra : Nat) (i : Option Isa) (config : Config) (src : Slice) (dst : RVec) :
    Prog (RVec × Except Unit Unit) :=
  decode_append_vec P extra i config src dst

end Simd.Base64
