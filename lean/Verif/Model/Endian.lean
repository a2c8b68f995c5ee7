import Verif.Model.Base32
import Verif.Model.Unicode
/-
The scalar code with its native-endian integer accesses written out, for both byte orders.

The other model files read `x.to_be()` of a native read as a big-endian read and `u32` elements as little-endian. Here `e` is the byte order of
the target, a native access is `ofMem e`/`toMem e`, and `to_be`, `swap_bytes` are operations on integers. There are no vector
implementations for big-endian targets, so only the fallback functions occur; functions without native multi-byte accesses are those of the
other model files.
-/
namespace Simd
open Base64 (ofBE toBE)

/-- `target_endian`. -/
inductive ByteOrder where
  | little | big
deriving DecidableEq, Repr

/-- The `w`-bit integer whose bytes in memory are `bs`. -/
def ofMem (e : ByteOrder) (w : Nat) (bs : List Byte) : BitVec w :=
  match e with
  | .little => ofBE w bs.reverse
  | .big => ofBE w bs
/-- The `n` bytes in memory of an integer. -/
def toMem (e : ByteOrder) {w : Nat} (n : Nat) (x : BitVec w) : List Byte :=
  match e with
  | .little => (toBE n x).reverse
  | .big => toBE n x
/-- `swap_bytes` of an `n`-byte integer. -/
def swap_bytes {w : Nat} (n : Nat) (x : BitVec w) : BitVec w := ofBE w (toBE n x).reverse
/-- `to_be` of an `n`-byte integer. -/
def to_be (e : ByteOrder) {w : Nat} (n : Nat) (x : BitVec w) : BitVec w :=
  match e with
  | .little => swap_bytes n x
  | .big => x

namespace Base32

/-- `read_be_bytes::<N>` (base32-simd/src/encode.rs:37-63). -/
def read_be_bytes_ne (e : ByteOrder) (w : Bool) (N : Nat) (src : Ptr) : Prog (BitVec 64) :=
  if N = 3 ∧ w = false then do
    let x1 ← rd src 0
    padd src 1
    let x2 : BitVec 16 := to_be e 2 (ofMem e 16 (← loadBytes (src.add 1) 2))
    return (x1.zeroExtend 64 <<< 16) ||| x2.zeroExtend 64
  else if N = 5 ∧ w = false then do
    let x1 ← rd src 0
    padd src 1
    let x2 : BitVec 32 := to_be e 4 (ofMem e 32 (← loadBytes (src.add 1) 4))
    return (x1.zeroExtend 64 <<< 32) ||| x2.zeroExtend 64
  else
    foldFrom (fun i (ans : BitVec 64) => do
      let x ← rd src i
      return ans ||| (x.zeroExtend 64 <<< ((N - 1 - i) * 8))) 0 N 0

/-- `encode_extra` (base32-simd/src/encode.rs:65-111). -/
def encode_extra_ne (e : ByteOrder) (w : Bool) (src : Ptr) (extra : Nat) (dst : Ptr) (charset : List Byte) (padding : Bool) : Prog Unit :=
  match extra with
  | 0 => pure ()
  | 1 => do
    let u10 := (← read_be_bytes_ne e w 1 src) <<< 2
    encode_bits 2 dst charset u10
    write_pad dst 2 padding
  | 2 => do
    let u20 := (← read_be_bytes_ne e w 2 src) <<< 4
    encode_bits 4 dst charset u20
    write_pad dst 4 padding
  | 3 => do
    let u25 := (← read_be_bytes_ne e w 3 src) <<< 1
    encode_bits 5 dst charset u25
    write_pad dst 5 padding
  | 4 => do
    let u35 := (← read_be_bytes_ne e w 4 src) <<< 3
    encode_bits 7 dst charset u35
    write_pad dst 7 padding
  | _ => .ub

/-- The loop of `encode_fallback` (base32-simd/src/encode.rs:120-125). -/
def encode_loop5_ne (e : ByteOrder) (w : Bool) (charset : List Byte) (end_ : Nat) (src dst : Ptr) : Prog (Ptr × Ptr) :=
  if src.off < end_ then do
    let u40 ← read_be_bytes_ne e w 5 src
    encode_bits 8 dst charset u40
    padd src 5
    padd dst 8
    encode_loop5_ne e w charset end_ (src.add 5) (dst.add 8)
  else pure (src, dst)
termination_by end_ - src.off
decreasing_by simp only [Ptr.add]; omega

/-- `encode_fallback` (base32-simd/src/encode.rs:113-130). -/
def encode_fallback_ne (e : ByteOrder) (w : Bool) (src : Ptr) (len : Nat) (dst : Ptr) (kind : Kind) (padding : Bool) : Prog Unit := do
  let cs := charset kind
  padd src (len / 5 * 5)
  let (src, dst) ← encode_loop5_ne e w cs (src.off + len / 5 * 5) src dst
  encode_extra_ne e w src (len % 5) dst cs padding

/-- `Base32::encode` (base32-simd/src/lib.rs:184-195) on a target without vector implementation. -/
def encode_ne (e : ByteOrder) (P : Plat) (w : Bool) (config : Config) (src dst : Slice) : Prog Slice := do
  let m ← liftO (encoded_length_unchecked P src.len config.padding)
  ensure (dst.len ≥ m)
  encode_fallback_ne e w src.ptr src.len dst.ptr config.kind config.padding
  return ⟨dst.ptr, m⟩

/-- `write_be_bytes::<N>` (base32-simd/src/decode.rs:67-95). -/
def write_be_bytes_ne (e : ByteOrder) (w : Bool) (N : Nat) (dst : Ptr) (x : BitVec 64) : Prog Unit :=
  if N = 3 ∧ w = false then do
    wrt dst 0 ((x >>> 16).setWidth 8)
    padd dst 1
    storeBytes (dst.add 1) (toMem e 2 (to_be e 2 (x.setWidth 16)))
  else if N = 5 ∧ w = false then do
    wrt dst 0 ((x >>> 32).setWidth 8)
    padd dst 1
    storeBytes (dst.add 1) (toMem e 4 (to_be e 4 (x.setWidth 32)))
  else
    forFrom (fun i => wrt dst i ((x >>> ((N - 1 - i) * 8)).setWidth 8)) 0 N

/-- `decode_extra::<true>` (base32-simd/src/decode.rs:97-137). -/
def decode_extra_ne (e : ByteOrder) (w : Bool) (src : Ptr) (extra : Nat) (dst : Ptr) (table : List Byte) : Prog Unit :=
  match extra with
  | 0 => pure ()
  | 2 => do
    let (u10, flag) ← decode_bits 2 src table
    ensure (flag != 0xff && (u10 &&& 0b11) == 0)
    write_be_bytes_ne e w 1 dst (u10 >>> 2)
  | 4 => do
    let (u20, flag) ← decode_bits 4 src table
    ensure (flag != 0xff && (u20 &&& 0b1111) == 0)
    write_be_bytes_ne e w 2 dst (u20 >>> 4)
  | 5 => do
    let (u25, flag) ← decode_bits 5 src table
    ensure (flag != 0xff && (u25 &&& 0b1) == 0)
    write_be_bytes_ne e w 3 dst (u25 >>> 1)
  | 7 => do
    let (u35, flag) ← decode_bits 7 src table
    ensure (flag != 0xff && (u35 &&& 0b111) == 0)
    write_be_bytes_ne e w 4 dst (u35 >>> 3)
  | _ => .ub

/-- The loop of `decode_fallback` (base32-simd/src/decode.rs:152-158). -/
def decode_loop8_ne (e : ByteOrder) (w : Bool) (table : List Byte) (end_ : Nat) (src dst : Ptr) : Prog (Ptr × Ptr) :=
  if src.off < end_ then do
    let (u40, flag) ← decode_bits 8 src table
    ensure (flag != 0xff)
    write_be_bytes_ne e w 5 dst u40
    padd src 8
    padd dst 5
    decode_loop8_ne e w table end_ (src.add 8) (dst.add 5)
  else pure (src, dst)
termination_by end_ - src.off
decreasing_by simp only [Ptr.add]; omega

/-- `decode_fallback` (base32-simd/src/decode.rs:139-162). -/
def decode_fallback_ne (e : ByteOrder) (w : Bool) (src : Ptr) (n : Nat) (dst : Ptr) (kind : Kind) : Prog Unit := do
  let table := table kind
  padd src (n / 8 * 8)
  let (src, dst) ← decode_loop8_ne e w table (src.off + n / 8 * 8) src dst
  decode_extra_ne e w src (n % 8) dst table

/-- `Base32::decode` (base32-simd/src/lib.rs:214-225). -/
def decode_ne (e : ByteOrder) (w : Bool) (config : Config) (src dst : Slice) : Prog Slice := do
  let (n, m) ← decoded_length src config.padding
  ensure (dst.len ≥ m)
  decode_fallback_ne e w src.ptr n dst.ptr config.kind
  return ⟨dst.ptr, m⟩

/-- `Base32::decode_inplace` (base32-simd/src/lib.rs:232-242). -/
def decode_inplace_ne (e : ByteOrder) (w : Bool) (config : Config) (data : Slice) : Prog Slice := do
  let (n, m) ← decoded_length data config.padding
  decode_fallback_ne e w data.ptr n data.ptr config.kind
  return ⟨data.ptr, m⟩

end Base32

namespace Base64

/-- `decode_ascii8::<true>` (base64-simd/src/decode.rs:80-103). -/
def decode_ascii8_ne (e : ByteOrder) (src dst : Ptr) (table : List Byte) : Prog Unit := do
  let (y, flag) ← foldFrom (fun i (st : BitVec 64 × Byte) => do
    let x ← rd src i
    let bits ← tread table x.toNat
    pure (st.1 ||| (bits.zeroExtend 64 <<< (58 - i * 6)), st.2 ||| bits)) 0 8 (0, 0)
  storeBytes dst (toMem e 8 (to_be e 8 y))
  ensure (flag != 0xff)

/-- First loop of `decode_fallback` (base64-simd/src/decode.rs:190-195). -/
def decode_loop8_ne (e : ByteOrder) (table : List Byte) (src dst : Ptr) (n : Nat) : Prog (Ptr × Ptr × Nat) :=
  if 11 ≤ n then do
    decode_ascii8_ne e src dst table
    padd src 8
    padd dst 6
    decode_loop8_ne e table (src.add 8) (dst.add 6) (n - 8)
  else pure (src, dst, n)
termination_by n

/-- `decode_fallback` (base64-simd/src/decode.rs:175-206). -/
def decode_fallback_ne (e : ByteOrder) (src dst : Ptr) (n : Nat) (config : Config) : Prog Unit := do
  let forgiving := config.extra.isForgiving
  let table := table config.kind
  let (src, dst, n) ← decode_loop8_ne e table src dst n
  padd src (n / 4 * 4)
  let (src, dst) ← decode_loop4 table (src.off + n / 4 * 4) src dst
  decode_extra (n % 4) src (some dst) table forgiving

/-- `Base64::decode` (base64-simd/src/lib.rs:262-273). -/
def decode_ne (e : ByteOrder) (config : Config) (src dst : Slice) : Prog Slice := do
  let (n, m) ← decoded_length src config
  ensure (dst.len ≥ m)
  decode_fallback_ne e src.ptr dst.ptr n config
  return ⟨dst.ptr, m⟩

/-- `Base64::decode_inplace` (base64-simd/src/lib.rs:280-290). -/
def decode_inplace_ne (e : ByteOrder) (config : Config) (data : Slice) : Prog Slice := do
  let (n, m) ← decoded_length data config
  decode_fallback_ne e data.ptr data.ptr n config
  return ⟨data.ptr, m⟩

end Base64

namespace Unicode

/-- Loop of `is_utf32le_fallback` (unicode-simd/src/utf32.rs:26-30). -/
def is_utf32le_fallback_loop_ne (e : ByteOrder) (end_ : Nat) (src : Ptr) (flag : Bool) : Prog Bool :=
  if src.off < end_ then do
    let x := ofMem e 32 (← loadBytes src 4)
    padd src 4
    is_utf32le_fallback_loop_ne e end_ (src.add 4) (flag && is_unicode_scalar_value x)
  else pure flag
termination_by end_ - src.off
decreasing_by simp only [Ptr.add]; omega

/-- `is_utf32le` (unicode-simd/src/lib.rs:59-62, utf32.rs:22-33). -/
def is_utf32le_ne (e : ByteOrder) (data : Slice) : Prog Bool := do
  padd data.ptr (4 * data.len)
  is_utf32le_fallback_loop_ne e (data.ptr.off + 4 * data.len) data.ptr true

/-- Loop of `bswap_fallback` (vsimd/src/bswap.rs:80-86): read an element, `swap_bytes`, write it. -/
def bswap_fallback_loop_ne (e : ByteOrder) (t : Elem) (end_ : Nat) (src dst : Ptr) : Prog Unit :=
  if src.off < end_ then do
    let x := ofMem e (8 * t.size) (← loadBytes src t.size)
    storeBytes dst (toMem e t.size (swap_bytes t.size x))
    padd src t.size
    padd dst t.size
    bswap_fallback_loop_ne e t end_ (src.add t.size) (dst.add t.size)
  else pure ()
termination_by end_ - src.off
decreasing_by cases t <;> simp only [Ptr.add, Elem.size] <;> omega

/-- `bswap_fallback` (vsimd/src/bswap.rs:75-87). -/
def bswap_fallback_ne (e : ByteOrder) (t : Elem) (src : Ptr) (len : Nat) (dst : Ptr) : Prog Unit := do
  padd src (t.size * len)
  bswap_fallback_loop_ne e t (src.off + t.size * len) src dst

/-- `utf32_swap_endianness` (unicode-simd/src/lib.rs:79-86), `utf16_swap_endianness` (lib.rs:103-110). -/
def swap_endianness_ne (e : ByteOrder) (t : Elem) (src dst : Slice) : Prog Slice := do
  assert (src.len ≤ dst.len)
  bswap_fallback_ne e t src.ptr src.len dst.ptr
  return ⟨dst.ptr, src.len⟩

/-- `utf32_swap_endianness_inplace` (unicode-simd/src/lib.rs:66-71), `utf16_swap_endianness_inplace` (lib.rs:90-95). -/
def swap_endianness_inplace_ne (e : ByteOrder) (t : Elem) (data : Slice) : Prog Unit := bswap_fallback_ne e t data.ptr data.len data.ptr

end Unicode
end Simd
