import Verif.Model.HexKernel
/-
The hex-simd crate (crates/hex-simd/src/{check,encode,decode,lib}.rs).

Loops `while src < end` are recursive functions with the loop variables as arguments; pointers of one loop
belong to one allocation, so comparison is comparison of offsets.
-/
namespace Simd.Hex
open Vs IsaId

/-! ### check.rs -/

/-- Loop of `check_short` (check.rs:11-15). -/
def check_short_loop (end_ : Nat) (src : Ptr) (flag : Byte) : Prog Byte :=
  if src.off < end_ then do
    let x ← rd src 0
    padd src 1
    check_short_loop end_ (src.add 1) (flag ||| unhex x)
  else pure flag
termination_by end_ - src.off
decreasing_by simp only [Ptr.add]; omega

/-- `check_short` (check.rs:8-18). -/
def check_short (src : Ptr) (len : Nat) : Prog Unit := do
  padd src len
  let flag ← check_short_loop (src.off + len) src 0
  ensure (flag != 0xff)

/-- Loop of `check_short_sc` (check.rs:24-28). -/
def check_short_sc_loop (end_ : Nat) (src : Ptr) : Prog Unit :=
  if src.off < end_ then do
    let x ← rd src 0
    ensure (unhex x != 0xff)
    padd src 1
    check_short_sc_loop end_ (src.add 1)
  else pure ()
termination_by end_ - src.off
decreasing_by simp only [Ptr.add]; omega

/-- `check_short_sc` (check.rs:22-30). -/
def check_short_sc (src : Ptr) (len : Nat) : Prog Unit := do
  padd src len
  check_short_sc_loop (src.off + len) src

/-- `check_fallback` (check.rs:33-35). -/
def check_fallback (src : Ptr) (len : Nat) : Prog Unit := check_short src len

/-- The 32-byte loop of `check_simd` (check.rs:47-51); returns the final `src`. -/
def check_loop32 (s : Isa) (end_ : Nat) (src : Ptr) : Prog Ptr :=
  if src.off < end_ then do
    let x ← v256_load s src
    ensure (← liftO (hex_check_xn s x))
    padd src 32
    check_loop32 s end_ (src.add 32)
  else pure src
termination_by end_ - src.off
decreasing_by simp only [Ptr.add]; omega

/-- The 16-byte loop of `check_simd` (check.rs:66-70). -/
def check_loop16 (s : Isa) (end_ : Nat) (src : Ptr) : Prog Ptr :=
  if src.off < end_ then do
    let x ← v128_load s src
    ensure (← liftO (hex_check_xn s x))
    padd src 16
    check_loop16 s end_ (src.add 16)
  else pure src
termination_by end_ - src.off
decreasing_by simp only [Ptr.add]; omega

/-- Tail of `check_simd` (check.rs:78-82). -/
def check_tail (s : Isa) (src : Ptr) (len : Nat) : Prog Unit :=
  if s.is AVX2 || s.is WASM128 then check_short_sc src len else check_short src len

/-- `check_simd` (check.rs:38-83). -/
def check_simd (s : Isa) (src : Ptr) (len : Nat) : Prog Unit :=
  if s.is AVX2 then
    if len = 16 then do
      let x ← v128_load s src
      ensure (← liftO (hex_check_xn s x))
    else do
      padd src (len / 32 * 32)
      let src ← check_loop32 s (src.off + len / 32 * 32) src
      let len := len % 32
      if len = 0 then pure ()
      else if 16 ≤ len then do
        let x ← v128_load s src
        ensure (← liftO (hex_check_xn s x))
        padd src 16
        check_tail s (src.add 16) (len - 16)
      else check_tail s src len
  else do
    padd src (len / 16 * 16)
    let src ← check_loop16 s (src.off + len / 16 * 16) src
    let len := len % 16
    if len = 0 then pure ()
    else check_tail s src len

/-! ### encode.rs -/

/-- `charset` (encode.rs:9-14). -/
def charset : AsciiCase → List Byte
  | .lower => LOWER_CHARSET
  | .upper => UPPER_CHARSET

/-- `encode_bits` (encode.rs:17-23). -/
def encode_bits (src dst : Ptr) (charset : List Byte) : Prog Unit := do
  let x ← rd src 0
  let hi ← tread charset (x >>> 4).toNat
  let lo ← tread charset (x &&& 0x0f).toNat
  wrt dst 0 hi
  wrt dst 1 lo

/-- Loop of `encode_short` (encode.rs:28-32). -/
def encode_short_loop (end_ : Nat) (src dst : Ptr) (charset : List Byte) : Prog Unit :=
  if src.off < end_ then do
    encode_bits src dst charset
    padd src 1
    padd dst 2
    encode_short_loop end_ (src.add 1) (dst.add 2) charset
  else pure ()
termination_by end_ - src.off
decreasing_by simp only [Ptr.add]; omega

/-- `encode_short` (encode.rs:26-33). -/
def encode_short (src : Ptr) (len : Nat) (dst : Ptr) (charset : List Byte) : Prog Unit := do
  padd src len
  encode_short_loop (src.off + len) src dst charset

/-- The inner loop `while i < 8` of `encode_long` (encode.rs:41-47). -/
def encode_long_inner (charset : List Byte) : Nat → Ptr → Ptr → Prog (Ptr × Ptr)
  | 0, src, dst => pure (src, dst)
  | k + 1, src, dst => do
    encode_bits src dst charset
    padd src 1
    padd dst 2
    encode_long_inner charset k (src.add 1) (dst.add 2)

/-- The outer loop of `encode_long` (encode.rs:40-48). The inner loop advances `src` by 8. -/
def encode_long_loop (end_ : Nat) (src dst : Ptr) (charset : List Byte) : Prog (Ptr × Ptr) :=
  if src.off < end_ then do
    let _ ← encode_long_inner charset 8 src dst
    encode_long_loop end_ (src.add 8) (dst.add 16) charset
  else pure (src, dst)
termination_by end_ - src.off
decreasing_by simp only [Ptr.add]; omega

/-- `encode_long` (encode.rs:36-50). -/
def encode_long (src : Ptr) (len : Nat) (dst : Ptr) (case : AsciiCase) : Prog Unit := do
  padd src (len / 8 * 8)
  let (src, dst) ← encode_long_loop (src.off + len / 8 * 8) src dst (charset case)
  encode_short src (len % 8) dst (charset case)

/-- `encode_fallback` (encode.rs:53-55). -/
def encode_fallback (src : Ptr) (len : Nat) (dst : Ptr) (case : AsciiCase) : Prog Unit := encode_long src len dst case

/-- `lut` selection (encode.rs:78-81, 132-135). -/
def encode_lut : AsciiCase → V256
  | .lower => ENCODE_LOWER_LUT
  | .upper => ENCODE_UPPER_LUT

/-- 32-byte loop of `encode_simd_v256` (encode.rs:91-102). -/
def encode_loop32 (s : Isa) (lut : V256) (end_ : Nat) (src dst : Ptr) : Prog (Ptr × Ptr) :=
  if src.off < end_ then do
    let x ← v256_load s src
    let (y1, y2) ← liftO (encode_bytes32 s x lut)
    v256_store s dst y1
    padd dst 32
    v256_store s (dst.add 32) y2
    padd dst 64
    padd src 32
    encode_loop32 s lut end_ (src.add 32) (dst.add 64)
  else pure (src, dst)
termination_by end_ - src.off
decreasing_by simp only [Ptr.add]; omega

/-- `encode_simd_v256` (encode.rs:71-122). -/
def encode_simd_v256 (s : Isa) (src : Ptr) (len : Nat) (dst : Ptr) (case : AsciiCase) : Prog Unit :=
  let lut := encode_lut case
  if len = 16 then do
    let x ← v128_load s src
    let y ← liftO (encode_bytes16 s x lut)
    v256_store s dst y
  else do
    padd src (len / 32 * 32)
    let (src, dst) ← encode_loop32 s lut (src.off + len / 32 * 32) src dst
    let len := len % 32
    if len = 0 then pure ()
    else if 16 ≤ len then do
      let x ← v128_load s src
      let y ← liftO (encode_bytes16 s x lut)
      v256_store s dst y
      padd dst 32
      padd src 16
      let len := len - 16
      if len > 0 then encode_short (src.add 16) len (dst.add 32) (charset case) else pure ()
    else if len > 0 then encode_short src len dst (charset case) else pure ()

/-- 16-byte loop of `encode_simd_v128` (encode.rs:138-144). -/
def encode_loop16 (s : Isa) (lut : V256) (end_ : Nat) (src dst : Ptr) : Prog (Ptr × Ptr) :=
  if src.off < end_ then do
    let x ← v128_load s src
    let y ← liftO (encode_bytes16 s x lut)
    v256_store s dst y
    padd dst 32
    padd src 16
    encode_loop16 s lut end_ (src.add 16) (dst.add 32)
  else pure (src, dst)
termination_by end_ - src.off
decreasing_by simp only [Ptr.add]; omega

/-- `encode_simd_v128` (encode.rs:125-153). -/
def encode_simd_v128 (s : Isa) (src : Ptr) (len : Nat) (dst : Ptr) (case : AsciiCase) : Prog Unit := do
  let lut := encode_lut case
  padd src (len / 16 * 16)
  let (src, dst) ← encode_loop16 s lut (src.off + len / 16 * 16) src dst
  let len := len % 16
  if len = 0 then pure ()
  else encode_short src len dst (charset case)

/-- Loop of `encode_simd_sse2` (encode.rs:163-174). -/
def encode_loop_sse2 (offset : V128) (end_ : Nat) (src dst : Ptr) : Prog (Ptr × Ptr) :=
  if src.off < end_ then do
    let x ← v128_load .sse2 src
    padd src 16
    let (y1, y2) ← liftO (sse2_encode16 x offset)
    v128_store .sse2 dst y1
    padd dst 16
    v128_store .sse2 (dst.add 16) y2
    padd dst 32
    encode_loop_sse2 offset end_ (src.add 16) (dst.add 32)
  else pure (src, dst)
termination_by end_ - src.off
decreasing_by simp only [Ptr.add]; omega

/-- `encode_simd_sse2` (encode.rs:156-183). -/
def encode_simd_sse2 (src : Ptr) (len : Nat) (dst : Ptr) (case : AsciiCase) : Prog Unit := do
  let offset := sse2_offset case
  padd src (len / 16 * 16)
  let (src, dst) ← encode_loop_sse2 offset (src.off + len / 16 * 16) src dst
  let len := len % 16
  if len = 0 then pure ()
  else encode_short src len dst (charset case)

/-- `encode_simd` (encode.rs:58-68); `is_isa_type!(S, SSE2)` is type equality. -/
def encode_simd (s : Isa) (src : Ptr) (len : Nat) (dst : Ptr) (case : AsciiCase) : Prog Unit :=
  if s = .sse2 then encode_simd_sse2 src len dst case
  else if s.is AVX2 then encode_simd_v256 s src len dst case
  else encode_simd_v128 s src len dst case

/-! ### decode.rs -/

/-- `shl4` (decode.rs:12-14). -/
def shl4 (x : Byte) : Byte := x <<< 4

/-- `decode_bits` (decode.rs:17-23). -/
def decode_bits (src dst : Ptr) : Prog Byte := do
  let y1 := unhex (← rd src 0)
  let y2 := unhex (← rd src 1)
  wrt dst 0 (shl4 y1 ||| y2)
  pure (y1 ||| y2)

/-- First loop of `decode_short` (decode.rs:33-38). -/
def decode_short_loop1 (end_ : Nat) (src dst : Ptr) : Prog Unit :=
  if src.off < end_ then do
    let flag ← decode_bits src dst
    ensure (flag != 0xff)
    padd src 2
    padd dst 1
    decode_short_loop1 end_ (src.add 2) (dst.add 1)
  else pure ()
termination_by end_ - src.off
decreasing_by simp only [Ptr.add]; omega

/-- Second loop of `decode_short` (decode.rs:43-47). -/
def decode_short_loop2 (end_ : Nat) (src dst : Ptr) (flag : Byte) : Prog Byte :=
  if src.off < end_ then do
    let f ← decode_bits src dst
    padd src 2
    padd dst 1
    decode_short_loop2 end_ (src.add 2) (dst.add 1) (flag ||| f)
  else pure flag
termination_by end_ - src.off
decreasing_by simp only [Ptr.add]; omega

/-- `decode_short::<S>` (decode.rs:26-51); `none` is `Fallback`. -/
def decode_short (s : Option Isa) (src : Ptr) (len : Nat) (dst : Ptr) : Prog Unit :=
  if s.any (·.is AVX2) || s.any (·.is WASM128) then do
    padd src len
    decode_short_loop1 (src.off + len) src dst
  else do
    padd src len
    let flag ← decode_short_loop2 (src.off + len) src dst 0
    ensure (flag != 0xff)

/-- The inner loop `while i < 8` of `decode_long` (decode.rs:57-64). -/
def decode_long_inner : Nat → Ptr → Ptr → Byte → Prog Byte
  | 0, _, _, flag => pure flag
  | k + 1, src, dst, flag => do
    let f ← decode_bits src dst
    padd src 2
    padd dst 1
    decode_long_inner k (src.add 2) (dst.add 1) (flag ||| f)

/-- The outer loop of `decode_long` (decode.rs:56-66). -/
def decode_long_loop (end_ : Nat) (src dst : Ptr) : Prog (Ptr × Ptr) :=
  if src.off < end_ then do
    let flag ← decode_long_inner 8 src dst 0
    ensure (flag != 0xff)
    decode_long_loop end_ (src.add 16) (dst.add 8)
  else pure (src, dst)
termination_by end_ - src.off
decreasing_by simp only [Ptr.add]; omega

/-- `decode_long` (decode.rs:54-68). -/
def decode_long (src : Ptr) (len : Nat) (dst : Ptr) : Prog Unit := do
  padd src (len / 16 * 16)
  let (src, dst) ← decode_long_loop (src.off + len / 16 * 16) src dst
  decode_short none src (len % 16) dst

/-- `decode_fallback` (decode.rs:71-73). -/
def decode_fallback (src : Ptr) (len : Nat) (dst : Ptr) : Prog Unit := decode_long src len dst

/-- `decode16` (decode.rs:76-81). -/
def decode16 (s : Isa) (src dst : Ptr) : Prog Unit := do
  let x ← v128_load s src
  let y ← liftR (decode_ascii16 s x)
  storeBytes dst y.toList

/-- `decode32` (decode.rs:84-89). -/
def decode32 (s : Isa) (src dst : Ptr) : Prog Unit := do
  let x ← v256_load s src
  let y ← liftR (Vs.decode_ascii32 s x)
  v128_store s dst y

/-- 64-byte loop of `decode_simd_v256` (decode.rs:120-131). -/
def decode_loop64 (s : Isa) (end_ : Nat) (src dst : Ptr) : Prog (Ptr × Ptr) :=
  if src.off < end_ then do
    let x0 ← v256_load s src
    padd src 32
    let x1 ← v256_load s (src.add 32)
    padd src 64
    let y ← liftR (decode_ascii32x2 s x0 x1)
    v256_store s dst y
    padd dst 32
    decode_loop64 s end_ (src.add 64) (dst.add 32)
  else pure (src, dst)
termination_by end_ - src.off
decreasing_by simp only [Ptr.add]; omega

/-- `if len >= 16 { … }` and the short tail (decode.rs:145-152 and 173-179). -/
def decode_tail16 (s : Isa) (src : Ptr) (len : Nat) (dst : Ptr) : Prog Unit :=
  if 16 ≤ len then do
    decode16 s src dst
    padd src 16
    padd dst 8
    decode_short (some s) (src.add 16) (len - 16) (dst.add 8)
  else decode_short (some s) src len dst

/-- `decode_simd_v256` (decode.rs:105-153). -/
def decode_simd_v256 (s : Isa) (src : Ptr) (len : Nat) (dst : Ptr) : Prog Unit :=
  if len = 16 then decode16 s src dst
  else if len = 32 then decode32 s src dst
  else do
    padd src (len / 64 * 64)
    let (src, dst) ← decode_loop64 s (src.off + len / 64 * 64) src dst
    let len := len % 64
    if len = 0 then pure ()
    else if 32 ≤ len then do
      decode32 s src dst
      padd src 32
      padd dst 16
      decode_tail16 s (src.add 32) (len - 32) (dst.add 16)
    else decode_tail16 s src len dst

/-- 32-byte loop of `decode_simd_v128` (decode.rs:163-167). -/
def decode_loop32 (s : Isa) (end_ : Nat) (src dst : Ptr) : Prog (Ptr × Ptr) :=
  if src.off < end_ then do
    decode32 s src dst
    padd src 32
    padd dst 16
    decode_loop32 s end_ (src.add 32) (dst.add 16)
  else pure (src, dst)
termination_by end_ - src.off
decreasing_by simp only [Ptr.add]; omega

/-- `decode_simd_v128` (decode.rs:156-180). -/
def decode_simd_v128 (s : Isa) (src : Ptr) (len : Nat) (dst : Ptr) : Prog Unit := do
  padd src (len / 32 * 32)
  let (src, dst) ← decode_loop32 s (src.off + len / 32 * 32) src dst
  let len := len % 32
  if len = 0 then pure ()
  else decode_tail16 s src len dst

/-- Loop of `decode_simd_sse2` (decode.rs:185-196). -/
def decode_loop_sse2 (end_ : Nat) (src dst : Ptr) : Prog (Ptr × Ptr) :=
  if src.off < end_ then do
    let x ← v128_load .sse2 src
    let (nibbles, flag) ← liftO (sse2_decode_nibbles x)
    ensure ((← liftO (u8x16_bitmask .sse2 flag)) == 0)
    let ans ← liftO (sse2_merge_bits nibbles)
    storeBytes dst ans.toList
    padd src 16
    padd dst 8
    decode_loop_sse2 end_ (src.add 16) (dst.add 8)
  else pure (src, dst)
termination_by end_ - src.off
decreasing_by simp only [Ptr.add]; omega

/-- `decode_simd_sse2` (decode.rs:183-204). -/
def decode_simd_sse2 (src : Ptr) (len : Nat) (dst : Ptr) : Prog Unit := do
  padd src (len / 16 * 16)
  let (src, dst) ← decode_loop_sse2 (src.off + len / 16 * 16) src dst
  let len := len % 16
  if len = 0 then pure ()
  else decode_short (some .sse2) src len dst

/-- `decode_simd` (decode.rs:92-102). -/
def decode_simd (s : Isa) (src : Ptr) (len : Nat) (dst : Ptr) : Prog Unit :=
  if s = .sse2 then decode_simd_sse2 src len dst
  else if s.is AVX2 then decode_simd_v256 s src len dst
  else decode_simd_v128 s src len dst

/-! ### multiversion.rs: implementations reachable through `auto` -/

/-- `multiversion::check::auto` resolved to implementation `i` (`none` = fallback). -/
def check_auto (i : Option Isa) (src : Ptr) (len : Nat) : Prog Unit :=
  match i with
  | none => check_fallback src len
  | some s => check_simd s src len
/-- `multiversion::encode::auto` resolved to implementation `i`. -/
def encode_auto (i : Option Isa) (src : Ptr) (len : Nat) (dst : Ptr) (case : AsciiCase) : Prog Unit :=
  match i with
  | none => encode_fallback src len dst case
  | some s => encode_simd s src len dst case
/-- `multiversion::decode::auto` resolved to implementation `i`. -/
def decode_auto (i : Option Isa) (src : Ptr) (len : Nat) (dst : Ptr) : Prog Unit :=
  match i with
  | none => decode_fallback src len dst
  | some s => decode_simd s src len dst

/-! ### lib.rs -/

/-- `encoded_length` (lib.rs:77-80). -/
def encoded_length (P : Plat) (n : Nat) : Option Nat :=
  if n ≤ P.usizeMax / 2 then P.mulU n 2 else none

/-- `decoded_length` (lib.rs:87-90). -/
def decoded_length (n : Nat) : Except Unit Nat :=
  if n % 2 = 0 then .ok (n / 2) else .error ()

/-- `check` (lib.rs:145-148). -/
def check (i : Option Isa) (data : Slice) : Prog Unit := check_auto i data.ptr data.len

/-- `encode` (lib.rs:157-165). The product `len * 2` is checked. -/
def encode (P : Plat) (i : Option Isa) (src dst : Slice) (case : AsciiCase) : Prog Slice := do
  ensure (dst.len / 2 ≥ src.len)
  encode_auto i src.ptr src.len dst.ptr case
  return ⟨dst.ptr, ← liftO (P.mulU src.len 2)⟩

/-- `decode` (lib.rs:174-184). -/
def decode (i : Option Isa) (src dst : Slice) : Prog Slice := do
  ensure (src.len % 2 == 0 && dst.len ≥ src.len / 2)
  decode_auto i src.ptr src.len dst.ptr
  return ⟨dst.ptr, src.len / 2⟩

/-- `decode_inplace` (lib.rs:191-200). -/
def decode_inplace (i : Option Isa) (data : Slice) : Prog Slice := do
  ensure (data.len % 2 == 0)
  decode_auto i data.ptr data.len data.ptr
  return ⟨data.ptr, data.len / 2⟩

/-- `encode_as_str` (lib.rs:209-212): `from_utf8_unchecked_mut` is the identity on bytes. -/
def encode_as_str (P : Plat) (i : Option Isa) (src dst : Slice) (case : AsciiCase) : Prog Slice :=
  encode P i src dst case

/-- `check_raw` (lib.rs:101-103). -/
def check_raw (i : Option Isa) (src : Ptr) (len : Nat) : Prog Unit := check_auto i src len
/-- `encode_raw` (lib.rs:115-118). -/
def encode_raw (P : Plat) (i : Option Isa) (src : Ptr) (len : Nat) (dst : Ptr) (case : AsciiCase) : Prog Nat := do
  encode_auto i src len dst case
  liftO (P.mulU len 2)
/-- `decode_raw` (lib.rs:132-136). -/
def decode_raw (i : Option Isa) (src : Ptr) (len : Nat) (dst : Ptr) : Prog Nat := do
  ensure (len % 2 == 0)
  decode_auto i src len dst
  return len / 2

end Simd.Hex
