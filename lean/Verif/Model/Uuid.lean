import Verif.Model.Hex
/-
The uuid-simd crate: crates/uuid-simd/src/{lib,parse,format,spec,multiversion,ext}.rs.

`Uuid` values and `[u8; N]` arrays are slices of `N` bytes. `unhex`, `shl4`, the character sets and the vector kernels
are those of `Verif.Model.HexKernel` and `Verif.Model.Hex`.
-/
namespace Simd.Uuid
open Vs IsaId Intrin
open Hex (shl4 charset encode_lut)

/-! ### spec.rs: lane insertion and extraction

`read_unaligned` of an `i16` / `i32` followed by insertion, and extraction followed by `write_unaligned`, keep the bytes
in memory order on the little-endian SIMD targets; the integers are therefore represented by their bytes. -/

/-- `_mm_insert_epi16`, `_mm_insert_epi32`, `vsetq_lane_s16`, `*_replace_lane`: the `k`-byte lane that starts at byte `o`. -/
def insertLane {n : Nat} (o k : Nat) (a : Vec n) (x : List Byte) : Vec n :=
  ⟨fun i => if o ≤ i ∧ i < o + k then x.getD (i - o) 0 else a.lane i⟩
/-- `_mm_extract_epi16`, `_mm_extract_epi32`, `vgetq_lane_s16`, `*_extract_lane`. -/
def extractLane {n : Nat} (o k : Nat) (a : Vec n) : List Byte := (List.range k).map fun i => a.lane (o + i)

/-- `i16x16_set_lane7` (spec.rs:41-70). -/
def i16x16_set_lane7 (s : Isa) (a : V256) (x : List Byte) : Option V256 :=
  if s.is AVX2 then some (insertLane 14 2 a x)
  else if s.is SSE2 then some (join (insertLane 14 2 a.lo x) a.hi)
  else if s.is NEON then some (join (insertLane 14 2 a.lo x) a.hi)
  else if s.is WASM128 then some (join (insertLane 14 2 a.lo x) a.hi)
  else none

/-- `i32x8_set_lane7` (spec.rs:73-102): SSE4.1 is needed on x86. -/
def i32x8_set_lane7 (s : Isa) (a : V256) (x : List Byte) : Option V256 :=
  if s.is AVX2 then some (insertLane 28 4 a x)
  else if s.is SSE41 then some (join a.lo (insertLane 12 4 a.hi x))
  else if s.is NEON then some (join a.lo (insertLane 12 4 a.hi x))
  else if s.is WASM128 then some (join a.lo (insertLane 12 4 a.hi x))
  else none

/-- `i32x4_get_lane3` (spec.rs:105-122). -/
def i32x4_get_lane3 (s : Isa) (a : V128) : Option (List Byte) :=
  if s.is SSE41 then some (extractLane 12 4 a)
  else if s.is NEON then some (extractLane 12 4 a)
  else if s.is WASM128 then some (extractLane 12 4 a)
  else none

/-- `i16x8_get_lane7` (spec.rs:125-142). -/
def i16x8_get_lane7 (s : Isa) (a : V128) : Option (List Byte) :=
  if s.is SSE2 then some (extractLane 14 2 a)
  else if s.is NEON then some (extractLane 14 2 a)
  else if s.is WASM128 then some (extractLane 14 2 a)
  else none

/-! ### parse.rs -/

/-- `parse_simple_fallback` (parse.rs:17-27). -/
def parse_simple_fallback (src dst : Ptr) : Prog Unit := do
  let flag ← foldFrom (fun i (flag : Byte) => do
    let h1 := unhex (← rd src (i * 2))
    let h2 := unhex (← rd src (i * 2 + 1))
    wrt dst i (shl4 h1 ||| h2)
    return flag ||| (h1 ||| h2)) 0 16 0
  ensure (flag != 0xff)

/-- The hyphen test of `parse_hyphenated_*` (parse.rs:31-34, 66-69). -/
def check_hyphens (src : Ptr) : Prog Unit := do
  let a ← rd src 8
  let b ← rd src 13
  let c ← rd src 18
  let d ← rd src 23
  ensure (a == 0x2d && b == 0x2d && c == 0x2d && d == 0x2d)

/-- `positions` (parse.rs:37). -/
def POSITIONS : List Nat := [0, 4, 9, 14, 19, 24, 28, 32]

/-- The loop of `parse_hyphenated_fallback` (parse.rs:38-46) over the remaining positions; `j` counts up from 0. -/
def parse_hyphenated_loop (src dst : Ptr) : List Nat → Nat → Byte → Prog Byte
  | [], _, flag => pure flag
  | i :: is, j, flag => do
    let h1 := unhex (← rd src i)
    let h2 := unhex (← rd src (i + 1))
    let h3 := unhex (← rd src (i + 2))
    let h4 := unhex (← rd src (i + 3))
    wrt dst (j * 2) (shl4 h1 ||| h2)
    wrt dst (j * 2 + 1) (shl4 h3 ||| h4)
    parse_hyphenated_loop src dst is (j + 1) (flag ||| (h1 ||| h2 ||| h3 ||| h4))

/-- `parse_hyphenated_fallback` (parse.rs:30-49). -/
def parse_hyphenated_fallback (src dst : Ptr) : Prog Unit := do
  check_hyphens src
  let flag ← parse_hyphenated_loop src dst POSITIONS 0 0
  ensure (flag != 0xff)

/-- `parse_simple_simd_sse2` (parse.rs:91-106). -/
def parse_simple_simd_sse2 (src dst : Ptr) : Prog Unit := do
  let x1 ← v128_load .sse2 src
  padd src 16
  let x2 ← v128_load .sse2 (src.add 16)
  let (n1, f1) ← liftO (sse2_decode_nibbles x1)
  let (n2, f2) ← liftO (sse2_decode_nibbles x2)
  let flag ← liftO (v128_or .sse2 f1 f2)
  ensure ((← liftO (u8x16_bitmask .sse2 flag)) == 0)
  let y1 ← liftO (sse2_merge_bits n1)
  let y2 ← liftO (sse2_merge_bits n2)
  storeBytes dst (y1.toList ++ y2.toList)

/-- `parse_simple_simd` (parse.rs:52-62). -/
def parse_simple_simd (s : Isa) (src dst : Ptr) : Prog Unit :=
  if s = .sse2 then parse_simple_simd_sse2 src dst
  else do
    let x ← v256_load s src
    let y ← liftR (decode_ascii32 s x)
    v128_store s dst y

/-- `SWIZZLE` of `parse_hyphenated_simd` (parse.rs:71-76). -/
def PARSE_SWIZZLE : V256 := .ofList
  [0x00, 0x01, 0x02, 0x03, 0x04, 0x05, 0x06, 0x07, 0x09, 0x0a, 0x0b, 0x0c, 0x0e, 0x0f, 0x80, 0x80,
   0x03, 0x04, 0x05, 0x06, 0x08, 0x09, 0x0a, 0x0b, 0x0c, 0x0d, 0x0e, 0x0f, 0x80, 0x80, 0x80, 0x80]

/-- `parse_hyphenated_simd` (parse.rs:65-88). -/
def parse_hyphenated_simd (s : Isa) (src dst : Ptr) : Prog Unit := do
  check_hyphens src
  let a0 ← v256_load s src
  let a1 ← liftO (u8x16x2_swizzle s a0 PARSE_SWIZZLE)
  padd src 16
  let a2 ← liftO (i16x16_set_lane7 s a1 (← loadBytes (src.add 16) 2))
  padd src 32
  let a3 ← liftO (i32x8_set_lane7 s a2 (← loadBytes (src.add 32) 4))
  let ans ← liftR (decode_ascii32 s a3)
  v128_store s dst ans

/-! ### format.rs; `charset` is `char_lut_fallback` (format.rs:11-16), `encode_lut` is `char_lut_simd` (format.rs:61-66) -/

/-- `format_simple_fallback` (format.rs:19-28). -/
def format_simple_fallback (src dst : Ptr) (case : AsciiCase) : Prog Unit :=
  forFrom (fun i => do
    let x ← rd src i
    let hi ← tread (charset case) (x >>> 4).toNat
    let lo ← tread (charset case) (x &&& 0x0f).toNat
    wrt dst (i * 2) hi
    wrt dst (i * 2 + 1) lo) 0 16

/-- The inner loop of `format_hyphenated_fallback` (format.rs:40-49): returns the final `i`. -/
def format_group (lut : List Byte) (src dst : Ptr) (i j end_ : Nat) : Prog Nat :=
  if j < end_ then do
    let x ← rd src i
    let hi ← tread lut (x >>> 4).toNat
    let lo ← tread lut (x &&& 0x0f).toNat
    wrt dst j hi
    wrt dst (j + 1) lo
    format_group lut src dst (i + 1) (j + 2) end_
  else pure i
termination_by end_ - j

/-- `groups` (format.rs:33). -/
def GROUPS : List (Nat × Nat) := [(0, 8), (9, 13), (14, 18), (19, 23), (24, 36)]

/-- The outer loop of `format_hyphenated_fallback` (format.rs:37-57) over the remaining groups. -/
def format_groups (lut : List Byte) (src dst : Ptr) : List (Nat × Nat) → Nat → Nat → Prog Unit
  | [], _, _ => pure ()
  | (start, end_) :: gs, g, i => do
    let i ← format_group lut src dst i start end_
    if g < 4 then wrt dst end_ 0x2d else pure ()
    format_groups lut src dst gs (g + 1) i

/-- `format_hyphenated_fallback` (format.rs:31-58). -/
def format_hyphenated_fallback (src dst : Ptr) (case : AsciiCase) : Prog Unit :=
  format_groups (charset case) src dst GROUPS 0 0

/-- `format_simple_simd_sse2` (format.rs:112-123). -/
def format_simple_simd_sse2 (src dst : Ptr) (case : AsciiCase) : Prog Unit := do
  let x ← v128_load .sse2 src
  let (y1, y2) ← liftO (sse2_encode16 x (sse2_offset case))
  v128_store .sse2 dst y1
  padd dst 16
  v128_store .sse2 (dst.add 16) y2

/-- `format_simple_simd` (format.rs:69-79). -/
def format_simple_simd (s : Isa) (src dst : Ptr) (case : AsciiCase) : Prog Unit :=
  if s = .sse2 then format_simple_simd_sse2 src dst case
  else do
    let x ← v128_load s src
    let y ← liftO (encode_bytes16 s x (encode_lut case))
    v256_store s dst y

/-- `SWIZZLE` of `format_hyphenated_simd` (format.rs:83-88). -/
def FORMAT_SWIZZLE : V256 := .ofList
  [0x00, 0x01, 0x02, 0x03, 0x04, 0x05, 0x06, 0x07, 0x80, 0x08, 0x09, 0x0a, 0x0b, 0x80, 0x0c, 0x0d,
   0x80, 0x80, 0x80, 0x00, 0x01, 0x02, 0x03, 0x80, 0x04, 0x05, 0x06, 0x07, 0x08, 0x09, 0x0a, 0x0b]
/-- `DASH` (format.rs:90-95). -/
def DASH : V256 := .ofList
  [0x00, 0x00, 0x00, 0x00, 0x00, 0x00, 0x00, 0x00, 0x2d, 0x00, 0x00, 0x00, 0x00, 0x2d, 0x00, 0x00,
   0x00, 0x00, 0x2d, 0x00, 0x00, 0x00, 0x00, 0x2d, 0x00, 0x00, 0x00, 0x00, 0x00, 0x00, 0x00, 0x00]

/-- `format_hyphenated_simd` (format.rs:82-109). -/
def format_hyphenated_simd (s : Isa) (src dst : Ptr) (case : AsciiCase) : Prog Unit := do
  let x ← v128_load s src
  let a ← liftO (encode_bytes16 s x (encode_lut case))
  let a1 ← liftO (u8x16x2_swizzle s a FORMAT_SWIZZLE)
  let a2 ← liftO (v256_or s a1 DASH)
  v256_store s dst a2
  let bytes_14_15 ← liftO (i16x8_get_lane7 s a.lo)
  let bytes_28_31 ← liftO (i32x4_get_lane3 s a.hi)
  padd dst 16
  storeBytes (dst.add 16) bytes_14_15
  padd dst 32
  storeBytes (dst.add 32) bytes_28_31

/-! ### multiversion.rs: implementations reachable through `auto` -/

/-- Targets of `multiversion::{parse_hyphenated, format_hyphenated}` (multiversion.rs:14-21, 32-39). -/
def hyphenated_targets : List Isa := [.avx2, .sse41, .neon32, .neon64, .wasm128]

/-- `multiversion::parse_simple::auto` resolved to implementation `i` (`none` = fallback). -/
def parse_simple_auto (i : Option Isa) (src dst : Ptr) : Prog Unit :=
  match i with
  | none => parse_simple_fallback src dst
  | some s => parse_simple_simd s src dst
/-- `multiversion::parse_hyphenated::auto` resolved to implementation `i`. -/
def parse_hyphenated_auto (i : Option Isa) (src dst : Ptr) : Prog Unit :=
  match i with
  | none => parse_hyphenated_fallback src dst
  | some s => parse_hyphenated_simd s src dst
/-- `multiversion::format_simple::auto` resolved to implementation `i`. -/
def format_simple_auto (i : Option Isa) (src dst : Ptr) (case : AsciiCase) : Prog Unit :=
  match i with
  | none => format_simple_fallback src dst case
  | some s => format_simple_simd s src dst case
/-- `multiversion::format_hyphenated::auto` resolved to implementation `i`. -/
def format_hyphenated_auto (i : Option Isa) (src dst : Ptr) (case : AsciiCase) : Prog Unit :=
  match i with
  | none => format_hyphenated_fallback src dst case
  | some s => format_hyphenated_simd s src dst case

/-! ### lib.rs; `dst` is the pointer to the 16, 32 or 36 bytes of the output array -/

/-- `"urn:uuid:"` (lib.rs:103). -/
def URN : List Byte := [0x75, 0x72, 0x6e, 0x3a, 0x75, 0x75, 0x69, 0x64, 0x3a]

/-- The pointer to the hyphenated text chosen by `parse` (lib.rs:94-105). -/
def hyphenated_start (src : Slice) : Prog Ptr :=
  match src.len with
  | 36 => pure src.ptr
  | 38 => do
    let a ← rd src.ptr 0
    -- `&&` does not evaluate its second operand when the first one is false
    ensure (a == 0x7b)
    let b ← rd src.ptr 37
    ensure (b == 0x7d)
    padd src.ptr 1
    pure (src.ptr.add 1)
  | 45 => do
    let head ← loadBytes src.ptr 9 -- `strip_prefix`
    ensure (head == URN)
    pure (src.ptr.add 9)
  | _ => .err

/-- `parse` (lib.rs:81-110); `si` implements the simple format, `hi` the hyphenated one. -/
def parse (si hi : Option Isa) (src : Slice) (dst : Ptr) : Prog Slice :=
  if src.len = 32 then do
    parse_simple_auto si src.ptr dst
    return ⟨dst, 16⟩
  else do
    let p ← hyphenated_start src
    parse_hyphenated_auto hi p dst
    return ⟨dst, 16⟩

/-- `parse_simple` (lib.rs:120-128). -/
def parse_simple (i : Option Isa) (src : Slice) (dst : Ptr) : Prog Slice := do
  ensure (src.len == 32)
  parse_simple_auto i src.ptr dst
  return ⟨dst, 16⟩

/-- `parse_hyphenated` (lib.rs:138-146). -/
def parse_hyphenated (i : Option Isa) (src : Slice) (dst : Ptr) : Prog Slice := do
  ensure (src.len == 36)
  parse_hyphenated_auto i src.ptr dst
  return ⟨dst, 16⟩

/-- `format_simple` (lib.rs:151-158). -/
def format_simple (i : Option Isa) (src dst : Ptr) (case : AsciiCase) : Prog Slice := do
  format_simple_auto i src dst case
  return ⟨dst, 32⟩

/-- `format_hyphenated` (lib.rs:163-170). -/
def format_hyphenated (i : Option Isa) (src dst : Ptr) (case : AsciiCase) : Prog Slice := do
  format_hyphenated_auto i src dst case
  return ⟨dst, 36⟩

/-! ### ext.rs

A local `MaybeUninit` array is a fresh allocation of uninitialised bytes. -/

/-- `parse_uuid` (ext.rs:50-58): `assume_init` is undefined behaviour unless every byte is initialised. -/
def parse_uuid (src : Slice) (f : Slice → Ptr → Prog Slice) : Prog (List Byte) :=
  .alloc 16 fun b => do
    let _ ← f src ⟨b, 0⟩
    loadBytes ⟨b, 0⟩ 16

/-- `UuidExt::parse` (ext.rs:62-64). -/
def ext_parse (si hi : Option Isa) (src : Slice) : Prog (List Byte) := parse_uuid src (parse si hi)
/-- `UuidExt::parse_simple` (ext.rs:67-69). -/
def ext_parse_simple (i : Option Isa) (src : Slice) : Prog (List Byte) := parse_uuid src (parse_simple i)
/-- `UuidExt::parse_hyphenated` (ext.rs:72-74). -/
def ext_parse_hyphenated (i : Option Isa) (src : Slice) : Prog (List Byte) := parse_uuid src (parse_hyphenated i)

/-- `format_uuid` (ext.rs:99-110): the text handed to the formatter; reading it requires every byte to be initialised. -/
def format_uuid (N : Nat) (src : Ptr) (f : Ptr → Ptr → AsciiCase → Prog Slice) (case : AsciiCase) : Prog (List Byte) :=
  .alloc N fun b => do
    let ans ← f src ⟨b, 0⟩ case
    loadBytes ans.ptr ans.len

/-- `LowerHex`, `UpperHex` for `Simple` (ext.rs:112-118, 132-138); `Display` is `LowerHex` (ext.rs:152-157). -/
def fmt_simple (i : Option Isa) (src : Ptr) (case : AsciiCase) : Prog (List Byte) := format_uuid 32 src (format_simple i) case
/-- `LowerHex`, `UpperHex` for `Hyphenated` (ext.rs:120-130, 140-150); `Display` is `LowerHex` (ext.rs:159-164). -/
def fmt_hyphenated (i : Option Isa) (src : Ptr) (case : AsciiCase) : Prog (List Byte) := format_uuid 36 src (format_hyphenated i) case

end Simd.Uuid
