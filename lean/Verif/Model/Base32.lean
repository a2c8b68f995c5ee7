import Verif.Model.Base64
/-
The base32-simd crate: crates/base32-simd/src/{lib,encode,decode,check,heap,alsw,multiversion}.rs.

`ofBE` and `toBE` are those of `Verif.Model.Base64`. The argument `w` of the scalar functions is
`cfg!(target_arch = "wasm32")`, which selects how several bytes are read or written at once.
-/
namespace Simd.Base32
open Vs IsaId
open Base64 (ofBE toBE)

/-- `BASE32_CHARSET` (lib.rs:76). -/
def BASE32_CHARSET : List Byte :=
  [0x41, 0x42, 0x43, 0x44, 0x45, 0x46, 0x47, 0x48, 0x49, 0x4a, 0x4b, 0x4c, 0x4d, 0x4e, 0x4f, 0x50,
   0x51, 0x52, 0x53, 0x54, 0x55, 0x56, 0x57, 0x58, 0x59, 0x5a, 0x32, 0x33, 0x34, 0x35, 0x36, 0x37]
/-- `BASE32HEX_CHARSET` (lib.rs:77). -/
def BASE32HEX_CHARSET : List Byte :=
  [0x30, 0x31, 0x32, 0x33, 0x34, 0x35, 0x36, 0x37, 0x38, 0x39, 0x41, 0x42, 0x43, 0x44, 0x45, 0x46,
   0x47, 0x48, 0x49, 0x4a, 0x4b, 0x4c, 0x4d, 0x4e, 0x4f, 0x50, 0x51, 0x52, 0x53, 0x54, 0x55, 0x56]

/-- `u16x4_to_u64` (lib.rs:80-82), on little-endian targets (all SIMD targets are). -/
def u16x4_to_u64 (a b c d : BitVec 16) : BitVec 64 := (d ++ c) ++ (b ++ a)

/-- `Kind` (lib.rs:92-95). -/
inductive Kind where
  | base32 | base32hex
deriving DecidableEq, Repr
/-- `Base32` (lib.rs:86-89). -/
structure Config where
  kind : Kind
  padding : Bool
deriving DecidableEq, Repr

/-- `BASE32` (lib.rs:98-101). -/
def BASE32 : Config := ⟨.base32, true⟩
/-- `BASE32HEX` (lib.rs:104-107). -/
def BASE32HEX : Config := ⟨.base32hex, true⟩
/-- `BASE32_NO_PAD` (lib.rs:110-113). -/
def BASE32_NO_PAD : Config := ⟨.base32, false⟩
/-- `BASE32HEX_NO_PAD` (lib.rs:116-119). -/
def BASE32HEX_NO_PAD : Config := ⟨.base32hex, false⟩

/-- `charset` (lib.rs:125-130, encode.rs:114-117, 141-144). -/
def charset : Kind → List Byte
  | .base32 => BASE32_CHARSET
  | .base32hex => BASE32HEX_CHARSET

/-! ### encode.rs -/

/-- `EXTRA` of `encoded_length_unchecked` (encode.rs:17). -/
def ENC_EXTRA : List Nat := [0, 2, 4, 5, 7]

/-- `encoded_length_unchecked` (encode.rs:9-19), with overflow-checked arithmetic (`none` = overflow). -/
def encoded_length_unchecked (P : Plat) (len : Nat) (padding : Bool) : Option Nat := do
  let l ← P.mulU (len / 5) 8
  if len % 5 = 0 then return l
  else if padding then P.addU l 8
  else P.addU l (ENC_EXTRA.getD (len % 5) 0)

/-- `encode_bits::<N>` (encode.rs:21-35): the index of the first character is not masked. -/
def encode_bits (N : Nat) (dst : Ptr) (charset : List Byte) (x : BitVec 64) : Prog Unit := do
  let y ← tread charset (x >>> ((N - 1) * 5)).toNat
  wrt dst 0 y
  forFrom (fun i => do
    let y ← tread charset ((x >>> ((N - 1 - i) * 5)) &&& 0x1f).toNat
    wrt dst i y) 1 (N - 1)

/-- `read_be_bytes::<N>` (encode.rs:37-63); `.to_be()` of a native read is a big-endian read. -/
def read_be_bytes (w : Bool) (N : Nat) (src : Ptr) : Prog (BitVec 64) :=
  if N = 3 ∧ w = false then do
    let x1 ← rd src 0
    padd src 1
    let x2 : BitVec 16 := ofBE 16 (← loadBytes (src.add 1) 2)
    return (x1.zeroExtend 64 <<< 16) ||| x2.zeroExtend 64
  else if N = 5 ∧ w = false then do
    let x1 ← rd src 0
    padd src 1
    let x2 : BitVec 32 := ofBE 32 (← loadBytes (src.add 1) 4)
    return (x1.zeroExtend 64 <<< 32) ||| x2.zeroExtend 64
  else
    foldFrom (fun i (ans : BitVec 64) => do
      let x ← rd src i
      return ans ||| (x.zeroExtend 64 <<< ((N - 1 - i) * 8))) 0 N 0

/-- The padding loops `while i < 8` of `encode_extra` (encode.rs:72-76, 83-87, 94-98, 105). -/
def write_pad (dst : Ptr) (i : Nat) (padding : Bool) : Prog Unit :=
  if padding then forFrom (fun i => wrt dst i 0x3d) i (8 - i) else pure ()

/-- `encode_extra` (encode.rs:65-111). -/
def encode_extra (w : Bool) (src : Ptr) (extra : Nat) (dst : Ptr) (charset : List Byte) (padding : Bool) : Prog Unit :=
  match extra with
  | 0 => pure ()
  | 1 => do
    let u10 := (← read_be_bytes w 1 src) <<< 2
    encode_bits 2 dst charset u10
    write_pad dst 2 padding
  | 2 => do
    let u20 := (← read_be_bytes w 2 src) <<< 4
    encode_bits 4 dst charset u20
    write_pad dst 4 padding
  | 3 => do
    let u25 := (← read_be_bytes w 3 src) <<< 1
    encode_bits 5 dst charset u25
    write_pad dst 5 padding
  | 4 => do
    let u35 := (← read_be_bytes w 4 src) <<< 3
    encode_bits 7 dst charset u35
    write_pad dst 7 padding
  | _ => .ub

/-- The loop of `encode_fallback` (encode.rs:120-125). -/
def encode_loop5 (w : Bool) (charset : List Byte) (end_ : Nat) (src dst : Ptr) : Prog (Ptr × Ptr) :=
  if src.off < end_ then do
    let u40 ← read_be_bytes w 5 src
    encode_bits 8 dst charset u40
    padd src 5
    padd dst 8
    encode_loop5 w charset end_ (src.add 5) (dst.add 8)
  else pure (src, dst)
termination_by end_ - src.off
decreasing_by simp only [Ptr.add]; omega

/-- `encode_fallback` (encode.rs:113-130). -/
def encode_fallback (w : Bool) (src : Ptr) (len : Nat) (dst : Ptr) (kind : Kind) (padding : Bool) : Prog Unit := do
  let cs := charset kind
  padd src (len / 5 * 5)
  let (src, dst) ← encode_loop5 w cs (src.off + len / 5 * 5) src dst
  encode_extra w src (len % 5) dst cs padding

/-- `SPLIT_SHUFFLE` (encode.rs:176-181). -/
def SPLIT_SHUFFLE : V256 := .ofList
  [0x07, 0x06, 0x08, 0x07, 0x09, 0x08, 0x0a, 0x09, 0x0c, 0x0b, 0x0d, 0x0c, 0x0e, 0x0d, 0x0f, 0x0e,
   0x01, 0x00, 0x02, 0x01, 0x03, 0x02, 0x04, 0x03, 0x06, 0x05, 0x07, 0x06, 0x08, 0x07, 0x09, 0x08]

/-- `split_bits` (encode.rs:174-212). -/
def split_bits (s : Isa) (x : V256) : Option V256 :=
  if s.is SSSE3 then do
    let x1 ← u8x16x2_swizzle s x SPLIT_SHUFFLE
    let x2 ← u16x16_mul_hi s x1 (← u64x4_splat s (u16x4_to_u64 (1 <<< 5) (1 <<< 7) (1 <<< 9) (1 <<< 11)))
    let x3 ← i16x16_mul_lo s x1 (← u64x4_splat s (u16x4_to_u64 (1 <<< 2) (1 <<< 4) (1 <<< 6) (1 <<< 8)))
    let x4 ← v256_and s x2 (← u16x16_splat s 0x001f)
    let x5 ← v256_and s x3 (← u16x16_splat s 0x1f00)
    v256_or s x4 x5
  else if s.is NEON || s.is WASM128 then do
    let x1 ← u8x16x2_swizzle s x SPLIT_SHUFFLE
    let x2 ← u16x16_shr s 4 x1
    let x3 ← i16x16_mul_lo s x2 (← u64x4_splat s (u16x4_to_u64 (1 <<< 1) (1 <<< 3) (1 <<< 5) (1 <<< 7)))
    let x4 ← i16x16_mul_lo s x1 (← u64x4_splat s (u16x4_to_u64 (1 <<< 2) (1 <<< 4) (1 <<< 6) (1 <<< 8)))
    let m3 ← u16x16_splat s 0x1f00
    let x5 ← v256_and s x3 m3
    let x6 ← v256_and s x4 m3
    let x7 ← u16x16_shr s 8 x5
    v256_or s x6 x7
  else none

/-- `EncodingLutX2` (encode.rs:214-219). -/
structure EncodingLutX2 where
  low : V256
  high : V256
  full : V256

/-- `EncodingLutX2::new` (encode.rs:221-229). -/
def EncodingLutX2.new (charset : List Byte) : EncodingLutX2 where
  full := .ofList charset
  low := Vec.x2 (.ofList (charset.take 16))
  high := Vec.x2 (.ofList (charset.drop 16))

/-- `BASE32_ENCODING_LUT`, `BASE32HEX_ENCODING_LUT` (encode.rs:231-232). -/
def ENCODING_LUT (kind : Kind) : EncodingLutX2 := .new (charset kind)

/-- `encode_values` (encode.rs:234-254). -/
def encode_values (s : Isa) (x : V256) (lut : EncodingLutX2) : Option V256 :=
  if s.is SSE41 then do
    let x1 ← u8x16x2_swizzle s lut.low x
    let x2 ← u8x16x2_swizzle s lut.high x
    let x3 ← u8x32_lt s (← u8x32_splat s 0x0f) x
    u8x32_blendv s x1 x2 x3
  else if s.is NEON && s.aarch64 then u8x32_swizzle s lut.full x
  else if s.is NEON || s.is WASM128 then do
    let m ← u8x32_splat s 0x0f
    let x1 ← v256_and s x m
    let x2 ← u8x16x2_swizzle s lut.low x1
    let x3 ← u8x16x2_swizzle s lut.high x1
    let x4 ← u8x32_lt s m x
    v256_bsl s x4 x3 x2
  else none

/-- `encode_bytes20` (encode.rs:256-265). -/
def encode_bytes20 (s : Isa) (x : V256) (lut : EncodingLutX2) : Option V256 := do
  let values ← split_bits s x
  encode_values s values lut

/-- The two scalar blocks at the start of `encode_simd` (encode.rs:147-159). -/
def encode_head (w : Bool) (charset : List Byte) : Nat → Ptr → Ptr → Prog (Ptr × Ptr)
  | 0, src, dst => pure (src, dst)
  | k + 1, src, dst => do
    let u40 ← read_be_bytes w 5 src
    encode_bits 8 dst charset u40
    padd src 5
    padd dst 8
    encode_head w charset k (src.add 5) (dst.add 8)

/-- The loop of `encode_simd` (encode.rs:161-168). -/
def encode_loop20 (s : Isa) (lut : EncodingLutX2) (src dst : Ptr) (len : Nat) : Prog (Ptr × Ptr × Nat) :=
  if 20 + 6 ≤ len then do
    let x ← v256_load s (← psub src 6)
    let y ← liftO (encode_bytes20 s x lut)
    v256_store s dst y
    padd src 20
    padd dst 32
    encode_loop20 s lut (src.add 20) (dst.add 32) (len - 20)
  else pure (src, dst, len)
termination_by len

/-- The vector part of `encode_simd` (encode.rs:146-169). -/
def encode_simd1 (w : Bool) (s : Isa) (src dst : Ptr) (len : Nat) (kind : Kind) : Prog (Ptr × Ptr × Nat) :=
  if 10 + 20 + 6 ≤ len then do
    let (src, dst) ← encode_head w (charset kind) 2 src dst
    encode_loop20 s (ENCODING_LUT kind) src dst (len - 10)
  else pure (src, dst, len)

/-- `encode_simd` (encode.rs:132-172). -/
def encode_simd (w : Bool) (s : Isa) (src : Ptr) (len : Nat) (dst : Ptr) (kind : Kind) (padding : Bool) : Prog Unit := do
  let (src, dst, len) ← encode_simd1 w s src dst len kind
  encode_fallback w src len dst kind padding

/-! ### decode.rs -/

/-- `decoding_table` (decode.rs:15-24). -/
def decoding_table (charset : List Byte) : List Byte :=
  (List.range 32).foldl (fun t i => t.set (charset.getD i 0).toNat (BitVec.ofNat 8 i)) (List.replicate 256 0xff)

/-- `BASE32_TABLE`, `BASE32HEX_TABLE` (decode.rs:26-27). -/
def table (kind : Kind) : List Byte := decoding_table (charset kind)

/-- `EXTRA` of `decoded_length` (decode.rs:45). -/
def DEC_EXTRA : List Nat := [0, 0xff, 1, 0xff, 2, 3, 0xff, 4]

/-- The computation of `n` in `decoded_length` (decode.rs:36-43); `last` is read as one 6-byte slice and
`len - 6` panics on underflow. -/
def data_length (data : Slice) (padding : Bool) : Prog Nat :=
  if padding then do
    ensure (data.len % 8 == 0)
    assert (6 ≤ data.len)
    let last ← loadBytes (data.ptr.add (data.len - 6)) 6
    return data.len - last.countP (· == 0x3d)
  else pure data.len

/-- `decoded_length` (decode.rs:29-50): number of data characters and number of bytes. -/
def decoded_length (data : Slice) (padding : Bool) : Prog (Nat × Nat) :=
  if data.len = 0 then pure (0, 0)
  else do
    let n ← data_length data padding
    let extra := DEC_EXTRA.getD (n % 8) 0
    ensure (extra != 0xff)
    return (n, n / 8 * 5 + extra)

/-- `decode_bits::<N>` (decode.rs:52-65). -/
def decode_bits (N : Nat) (src : Ptr) (table : List Byte) : Prog (BitVec 64 × Byte) :=
  foldFrom (fun i (st : BitVec 64 × Byte) => do
    let x ← rd src i
    let bits ← tread table x.toNat
    return ((st.1 <<< 5) ||| bits.zeroExtend 64, st.2 ||| bits)) 0 N (0, 0)

/-- `write_be_bytes::<N>` (decode.rs:67-95). -/
def write_be_bytes (w : Bool) (N : Nat) (dst : Ptr) (x : BitVec 64) : Prog Unit :=
  if N = 3 ∧ w = false then do
    wrt dst 0 ((x >>> 16).setWidth 8)
    padd dst 1
    storeBytes (dst.add 1) (toBE 2 (x.setWidth 16))
  else if N = 5 ∧ w = false then do
    wrt dst 0 ((x >>> 32).setWidth 8)
    padd dst 1
    storeBytes (dst.add 1) (toBE 4 (x.setWidth 32))
  else
    forFrom (fun i => wrt dst i ((x >>> ((N - 1 - i) * 8)).setWidth 8)) 0 N

/-- The write at the end of each case of `decode_extra` (decode.rs:109-111, 116-118, 123-125, 130-132);
`dst` is `none` when `WRITE` is false. -/
def write_opt (w : Bool) (N : Nat) (dst : Option Ptr) (x : BitVec 64) : Prog Unit :=
  match dst with
  | some dst => write_be_bytes w N dst x
  | none => pure ()

/-- `decode_extra::<WRITE>` (decode.rs:97-137). -/
def decode_extra (w : Bool) (src : Ptr) (extra : Nat) (dst : Option Ptr) (table : List Byte) : Prog Unit :=
  match extra with
  | 0 => pure ()
  | 2 => do
    let (u10, flag) ← decode_bits 2 src table
    ensure (flag != 0xff && (u10 &&& 0b11) == 0)
    write_opt w 1 dst (u10 >>> 2)
  | 4 => do
    let (u20, flag) ← decode_bits 4 src table
    ensure (flag != 0xff && (u20 &&& 0b1111) == 0)
    write_opt w 2 dst (u20 >>> 4)
  | 5 => do
    let (u25, flag) ← decode_bits 5 src table
    ensure (flag != 0xff && (u25 &&& 0b1) == 0)
    write_opt w 3 dst (u25 >>> 1)
  | 7 => do
    let (u35, flag) ← decode_bits 7 src table
    ensure (flag != 0xff && (u35 &&& 0b111) == 0)
    write_opt w 4 dst (u35 >>> 3)
  | _ => .ub

/-- The loop of `decode_fallback` (decode.rs:152-158). -/
def decode_loop8 (w : Bool) (table : List Byte) (end_ : Nat) (src dst : Ptr) : Prog (Ptr × Ptr) :=
  if src.off < end_ then do
    let (u40, flag) ← decode_bits 8 src table
    ensure (flag != 0xff)
    write_be_bytes w 5 dst u40
    padd src 8
    padd dst 5
    decode_loop8 w table end_ (src.add 8) (dst.add 5)
  else pure (src, dst)
termination_by end_ - src.off
decreasing_by simp only [Ptr.add]; omega

/-- `decode_fallback` (decode.rs:139-162). -/
def decode_fallback (w : Bool) (src : Ptr) (n : Nat) (dst : Ptr) (kind : Kind) : Prog Unit := do
  let table := table kind
  padd src (n / 8 * 8)
  let (src, dst) ← decode_loop8 w table (src.off + n / 8 * 8) src dst
  decode_extra w src (n % 8) (some dst) table

/-- `Base32Alsw` or `Base32HexAlsw` (alsw.rs:4-65). -/
def alsw : Kind → AlswSpec
  | .base32 => Base32Alsw
  | .base32hex => Base32HexAlsw
/-- `BASE32_ALSW_CHECK_X2`, `BASE32HEX_ALSW_CHECK_X2` (alsw.rs:67, 70). -/
def ALSW_CHECK_X2 (kind : Kind) : AlswLut 32 := (alsw kind).check_lut.x2
/-- `BASE32_ALSW_DECODE_X2`, `BASE32HEX_ALSW_DECODE_X2` (alsw.rs:68, 71). -/
def ALSW_DECODE_X2 (kind : Kind) : AlswLut 32 := (alsw kind).decode_lut.x2

/-- `u32x8_blend_0x55` (decode.rs:194-203). -/
def u32x8_blend_0x55 (s : Isa) (a b : V256) : Option V256 :=
  if s.is AVX2 then u32x8_blend s 0x55 a b
  else if s.is SSE41 then vop2 (u16x8_blend s 0x33) a b
  else none

/-- `MERGE_S1` of the SSE4.1 branch of `merge_bits` (decode.rs:209-213). -/
def MERGE_S1 : V256 := Vec.x2 (.ofList
  [0x01, 0x00, 0x02, 0x04, 0x06, 0x09, 0x08, 0x0a, 0x0c, 0x0e, 0x80, 0x80, 0x80, 0x80, 0x80, 0x80])
/-- `MERGE_S2` of the SSE4.1 branch of `merge_bits` (decode.rs:214-218). -/
def MERGE_S2 : V256 := Vec.x2 (.ofList
  [0x80, 0x03, 0x05, 0x07, 0x80, 0x80, 0x0b, 0x0d, 0x0f, 0x80, 0x80, 0x80, 0x80, 0x80, 0x80, 0x80])
/-- `MERGE_S1` of the NEON and WASM branch of `merge_bits` (decode.rs:233-236). -/
def MERGE_N1 : V256 := Vec.x2 (.ofList
  [0x00, 0x02, 0x05, 0x07, 0x06, 0x80, 0x80, 0x04, 0x08, 0x0a, 0x0d, 0x0f, 0x0e, 0x80, 0x80, 0x0c])
/-- `MERGE_S2` of the NEON and WASM branch (decode.rs:237-240). -/
def MERGE_N2 : V256 := Vec.x2 (.ofList
  [0x01, 0x00, 0x02, 0x04, 0x06, 0x03, 0x80, 0x80, 0x09, 0x08, 0x0a, 0x0c, 0x0e, 0x0b, 0x80, 0x80])
/-- `MERGE_S3` of the NEON and WASM branch (decode.rs:241-245). -/
def MERGE_N3 : V256 := Vec.x2 (.ofList
  [0x00, 0x01, 0x02, 0x03, 0x04, 0x08, 0x09, 0x0a, 0x0b, 0x0c, 0x80, 0x80, 0x80, 0x80, 0x80, 0x80])
/-- `MERGE_S4` of the NEON and WASM branch (decode.rs:246-250). -/
def MERGE_N4 : V256 := Vec.x2 (.ofList
  [0x80, 0x05, 0x80, 0x07, 0x80, 0x80, 0x0d, 0x80, 0x0f, 0x80, 0x80, 0x80, 0x80, 0x80, 0x80, 0x80])

/-- `merge_bits` (decode.rs:205-265); `u32::from_le_bytes([1 << 7, 1 << 2, 1 << 5, 1 << 0])` is written as a number. -/
def merge_bits (s : Isa) (x : V256) : Option V256 :=
  if s.is SSE41 then do
    let x1 ← i16x16_maddubs s (← u32x8_splat s 0x01200480) x
    let x2 ← u32x8_shl s 4 x1
    let x3 ← u32x8_blend_0x55 s x1 x2
    let x4 ← u8x16x2_swizzle s x3 MERGE_S1
    let x5 ← u8x16x2_swizzle s x3 MERGE_S2
    v256_or s x4 x5
  else if s.is NEON || s.is WASM128 then do
    let x1 ← v256_and s x (← u16x16_splat s 0x001f)
    let x2 ← i16x16_mul_lo s x1 (← u64x4_splat s (u16x4_to_u64 (1 <<< 3) (1 <<< 1) (1 <<< 7) (1 <<< 5)))
    let x3 ← u16x16_shr s 8 x
    let x4 ← i16x16_mul_lo s x3 (← u64x4_splat s (u16x4_to_u64 (1 <<< 6) (1 <<< 4) (1 <<< 2) (1 <<< 0)))
    let x5 ← u8x16x2_swizzle s x2 MERGE_N1
    let x6 ← u8x16x2_swizzle s x4 MERGE_N2
    let x7 ← v256_or s x5 x6
    let x8 ← u8x16x2_swizzle s x7 MERGE_N3
    let x9 ← u8x16x2_swizzle s x7 MERGE_N4
    v256_or s x8 x9
  else none

/-- `decode_ascii32` (decode.rs:267-273). -/
def decode_ascii32 (s : Isa) (x : V256) (check decode : AlswLut 32) : Option (Except Unit V256) := do
  let (c1, c2) ← decode_ascii_xn s x check decode
  let y ← merge_bits s c2
  if ← u8x32_highbit_any s c1 then return .error () else return .ok y

/-- The loop of `decode_simd` (decode.rs:178-189). -/
def decode_loop32 (s : Isa) (check_lut decode_lut : AlswLut 32) (src dst : Ptr) (n : Nat) : Prog (Ptr × Ptr × Nat) :=
  if 42 ≤ n then do
    let x ← v256_load s src
    let y ← liftR (decode_ascii32 s x check_lut decode_lut)
    v128_store s dst y.lo
    padd dst 10
    v128_store s (dst.add 10) y.hi
    padd src 32
    padd dst 20
    decode_loop32 s check_lut decode_lut (src.add 32) (dst.add 20) (n - 32)
  else pure (src, dst, n)
termination_by n

/-- `decode_simd` (decode.rs:164-192). -/
def decode_simd (w : Bool) (s : Isa) (src : Ptr) (n : Nat) (dst : Ptr) (kind : Kind) : Prog Unit := do
  let (src, dst, n) ← decode_loop32 s (ALSW_CHECK_X2 kind) (ALSW_DECODE_X2 kind) src dst n
  decode_fallback w src n dst kind

/-! ### check.rs -/

/-- The loop of `check_fallback` (check.rs:21-25). -/
def check_loop8 (table : List Byte) (end_ : Nat) (src : Ptr) : Prog Ptr :=
  if src.off < end_ then do
    let (_, flag) ← decode_bits 8 src table
    ensure (flag != 0xff)
    padd src 8
    check_loop8 table end_ (src.add 8)
  else pure src
termination_by end_ - src.off
decreasing_by simp only [Ptr.add]; omega

/-- `check_fallback` (check.rs:14-29); nothing is written, so `w` does not matter. -/
def check_fallback (src : Ptr) (len : Nat) (kind : Kind) : Prog Unit := do
  let table := table kind
  padd src (len / 8 * 8)
  let src ← check_loop8 table (src.off + len / 8 * 8) src
  decode_extra false src (len % 8) none table

/-- The loop of `check_simd` (check.rs:39-46); `check_ascii32` (check.rs:52-55) is `check_ascii_xn`. -/
def check_loop32 (s : Isa) (check_lut : AlswLut 32) (end_ : Nat) (src : Ptr) : Prog Ptr :=
  if src.off < end_ then do
    let x ← v256_load s src
    let is_valid ← liftO (check_ascii_xn s x check_lut)
    ensure is_valid
    padd src 32
    check_loop32 s check_lut end_ (src.add 32)
  else pure src
termination_by end_ - src.off
decreasing_by simp only [Ptr.add]; omega

/-- `check_simd` (check.rs:32-50). -/
def check_simd (s : Isa) (src : Ptr) (len : Nat) (kind : Kind) : Prog Unit := do
  padd src (len / 32 * 32)
  let src ← check_loop32 s (ALSW_CHECK_X2 kind) (src.off + len / 32 * 32) src
  check_fallback src (len % 32) kind

/-! ### multiversion.rs: implementations reachable through `auto` -/

/-- Targets of `multiversion::{encode, decode}` (multiversion.rs:12-28). -/
def targets : List Isa := [.avx2, .sse41, .neon32, .neon64, .wasm128]
/-- Targets of `multiversion::check` (multiversion.rs:3-10). -/
def check_targets : List Isa := [.avx2, .ssse3, .neon32, .neon64, .wasm128]

/-- `multiversion::encode::auto` resolved to implementation `i` (`none` = fallback). -/
def encode_auto (w : Bool) (i : Option Isa) (src : Ptr) (len : Nat) (dst : Ptr) (kind : Kind) (padding : Bool) : Prog Unit :=
  match i with
  | none => encode_fallback w src len dst kind padding
  | some s => encode_simd w s src len dst kind padding
/-- `multiversion::decode::auto` resolved to implementation `i`. -/
def decode_auto (w : Bool) (i : Option Isa) (src : Ptr) (n : Nat) (dst : Ptr) (kind : Kind) : Prog Unit :=
  match i with
  | none => decode_fallback w src n dst kind
  | some s => decode_simd w s src n dst kind
/-- `multiversion::check::auto` resolved to implementation `i`. -/
def check_auto (i : Option Isa) (src : Ptr) (n : Nat) (kind : Kind) : Prog Unit :=
  match i with
  | none => check_fallback src n kind
  | some s => check_simd s src n kind

/-! ### lib.rs -/

/-- `Base32::encoded_length` (lib.rs:138-141); `none` is a panic. -/
def encoded_length (P : Plat) (config : Config) (n : Nat) : Option Nat :=
  if n ≤ P.usizeMax / 2 then encoded_length_unchecked P n config.padding else none

/-- `Base32::estimated_decoded_length` (lib.rs:148-154). -/
def estimated_decoded_length (P : Plat) (n : Nat) : Option Nat :=
  if n % 8 = 0 then P.mulU (n / 8) 5
  else do P.mulU (← P.addU (n / 8) 1) 5

/-- `Base32::decoded_length` (lib.rs:163-166). -/
def decoded_length_pub (config : Config) (data : Slice) : Prog Nat := do
  let (_, m) ← decoded_length data config.padding
  return m

/-- `Base32::check` (lib.rs:173-177). -/
def check (i : Option Isa) (config : Config) (data : Slice) : Prog Unit := do
  let (n, _) ← decoded_length data config.padding
  check_auto i data.ptr n config.kind

/-- `Base32::encode` (lib.rs:184-195). -/
def encode (P : Plat) (w : Bool) (i : Option Isa) (config : Config) (src dst : Slice) : Prog Slice := do
  let m ← liftO (encoded_length_unchecked P src.len config.padding)
  ensure (dst.len ≥ m)
  encode_auto w i src.ptr src.len dst.ptr config.kind config.padding
  return ⟨dst.ptr, m⟩

/-- `Base32::encode_as_str` (lib.rs:202-205): `from_utf8_unchecked_mut` is the identity on bytes. -/
def encode_as_str (P : Plat) (w : Bool) (i : Option Isa) (config : Config) (src dst : Slice) : Prog Slice := do
  let ans ← encode P w i config src dst
  pure ans

/-- `Base32::decode` (lib.rs:214-225). -/
def decode (w : Bool) (i : Option Isa) (config : Config) (src dst : Slice) : Prog Slice := do
  let (n, m) ← decoded_length src config.padding
  ensure (dst.len ≥ m)
  decode_auto w i src.ptr n dst.ptr config.kind
  return ⟨dst.ptr, m⟩

/-- `Base32::decode_inplace` (lib.rs:232-242). -/
def decode_inplace (w : Bool) (i : Option Isa) (config : Config) (data : Slice) : Prog Slice := do
  let (n, m) ← decoded_length data config.padding
  decode_auto w i data.ptr n data.ptr config.kind
  return ⟨data.ptr, m⟩

/-! ### heap.rs -/

/-- `encode_to_boxed_str` (heap.rs:58-77). -/
def encode_to_boxed_str (P : Plat) (w : Bool) (i : Option Isa) (config : Config) (data : Slice) : Prog Slice :=
  if data.len = 0 then box_empty
  else do
    let m ← liftO (encoded_length_unchecked P data.len config.padding)
    assert (m ≤ P.usizeMax / 2)
    let buf ← alloc_uninit_bytes P m
    encode_auto w i data.ptr data.len buf.ptr config.kind config.padding
    assume_init buf

/-- `encode_append_vec` (heap.rs:80-98). -/
def encode_append_vec (P : Plat) (w : Bool) (extra : Nat) (i : Option Isa) (config : Config) (src : Slice) (buf : RVec) : Prog RVec :=
  if src.len = 0 then pure buf
  else do
    let m ← liftO (encoded_length_unchecked P src.len config.padding)
    assert (m ≤ P.usizeMax / 2)
    let buf ← buf.reserve_exact P extra m
    let prev_len := buf.len
    padd ⟨buf.buf, 0⟩ prev_len
    encode_auto w i src.ptr src.len ⟨buf.buf, prev_len⟩ config.kind config.padding
    buf.set_len (← liftO (P.addU prev_len m))

/-- `decode_to_boxed_bytes` (heap.rs:15-34). -/
def decode_to_boxed_bytes (P : Plat) (w : Bool) (i : Option Isa) (config : Config) (data : Slice) : Prog Slice :=
  if data.len = 0 then box_empty
  else do
    let (n, m) ← decoded_length data config.padding
    let buf ← alloc_uninit_bytes P m
    decode_auto w i data.ptr n buf.ptr config.kind
    assume_init buf

/-- `decode_append_vec` (heap.rs:37-55); returns the updated vector together with the result. -/
def decode_append_vec (P : Plat) (w : Bool) (extra : Nat) (i : Option Isa) (config : Config) (src : Slice) (buf : RVec) :
    Prog (RVec × Except Unit Unit) :=
  if src.len = 0 then pure (buf, .ok ())
  else do
    match ← (decoded_length src config.padding).attempt with
    | none => pure (buf, .error ())
    | some (n, m) =>
      let buf ← buf.reserve_exact P extra m
      let prev_len := buf.len
      padd ⟨buf.buf, 0⟩ prev_len
      match ← (decode_auto w i src.ptr n ⟨buf.buf, prev_len⟩ config.kind).attempt with
      | none => pure (buf, .error ())
      | some _ =>
        let buf ← buf.set_len (← liftO (P.addU prev_len m))
        pure (buf, .ok ())

/-- `encode_to_string` (lib.rs:280-282) = `encode_type::<String>` (lib.rs:247-249, heap.rs:144-150). -/
def encode_to_string (P : Plat) (w : Bool) (i : Option Isa) (config : Config) (src : Slice) : Prog RVec := do
  return .ofBox (← encode_to_boxed_str P w i config src)
/-- `decode_to_vec` (lib.rs:291-293) = `decode_type::<Vec<u8>>` (lib.rs:256-258, heap.rs:109-115). -/
def decode_to_vec (P : Plat) (w : Bool) (i : Option Isa) (config : Config) (src : Slice) : Prog RVec := do
  return .ofBox (← decode_to_boxed_bytes P w i config src)
/-- `encode_append::<Vec<u8>>`, `::<String>` (lib.rs:262-264, heap.rs:153-166). -/
def encode_append (P : Plat) (w : Bool) (extra : Nat) (i : Option Isa) (config : Config) (src : Slice) (dst : RVec) : Prog RVec :=
  encode_append_vec P w extra i config src dst
/-- `decode_append::<Vec<u8>>` (lib.rs:271-273, heap.rs:169-174). -/
def decode_append (P : Plat) (w : Bool) (extra : Nat) (i : Option Isa) (config : Config) (src : Slice) (dst : RVec) :
    Prog (RVec × Except Unit Unit) :=
  decode_append_vec P w extra i config src dst

end Simd.Base32
