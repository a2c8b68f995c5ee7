import Verif.Model.Simd
/-
The unicode-simd crate (crates/unicode-simd/src/{ascii,utf16,utf32,lib,multiversion}.rs) and
crates/vsimd/src/bswap.rs.

Slices of `u16`, `u32` and `u64` are slices of their bytes in memory order: `src.add(k)` on a `*const u32` is `4 * k` bytes.
Simplification: integers are read and written little-endian, as on every target with a SIMD implementation
(Model/Endian.lean has the scalar code for both byte orders); alignment is treated apart (Spec/Aligned.lean). Loops `while src < end` are recursive functions with the loop variables as arguments.
-/
namespace Simd.Unicode
open Vs IsaId Intrin

/-- The `u32` read from 4 bytes. -/
def le32 (bs : List Byte) : BitVec 32 := bs.getD 3 0 ++ bs.getD 2 0 ++ bs.getD 1 0 ++ bs.getD 0 0
/-- The `u64` read from 8 bytes. -/
def le64 (bs : List Byte) : BitVec 64 :=
  bs.getD 7 0 ++ bs.getD 6 0 ++ bs.getD 5 0 ++ bs.getD 4 0 ++ bs.getD 3 0 ++ bs.getD 2 0 ++ bs.getD 1 0 ++ bs.getD 0 0

/-! ### ascii.rs -/

/-- Loop of `is_ascii_fallback` (ascii.rs:10-13). -/
def is_ascii_fallback_loop (end_ : Nat) (src : Ptr) (ans : Byte) : Prog Byte :=
  if src.off < end_ then do
    let x ← rd src 0
    padd src 1
    is_ascii_fallback_loop end_ (src.add 1) (ans ||| x)
  else pure ans
termination_by end_ - src.off
decreasing_by simp only [Ptr.add]; omega

/-- `is_ascii_fallback` (ascii.rs:7-15). -/
def is_ascii_fallback (src : Ptr) (len : Nat) : Prog Bool := do
  padd src len
  let ans ← is_ascii_fallback_loop (src.off + len) src 0
  return ans.ult 0x80

/-- Loop of `is_ascii_simd_v256` (ascii.rs:36-40); returns the final `src` and `y`. -/
def is_ascii_loop32 (s : Isa) (end_ : Nat) (src : Ptr) (y : V256) : Prog (Ptr × V256) :=
  if src.off < end_ then do
    let x ← v256_load s src
    let y ← liftO (v256_or s y x)
    padd src 32
    is_ascii_loop32 s end_ (src.add 32) y
  else pure (src, y)
termination_by end_ - src.off
decreasing_by simp only [Ptr.add]; omega

/-- `is_ascii_simd_v256` (ascii.rs:33-46). -/
def is_ascii_simd_v256 (s : Isa) (src : Ptr) (len : Nat) : Prog Bool := do
  padd src (len / 32 * 32)
  let y ← liftO (v256_create_zero s)
  let (src', y) ← is_ascii_loop32 s (src.off + len / 32 * 32) src y
  let any ← liftO (u8x32_highbit_any s y)
  let tail ← is_ascii_fallback src' (len % 32)
  return !any && tail

/-- `check4` (ascii.rs:70-72). -/
def check4 (x : BitVec 32) : Bool := x &&& 0x80808080 == 0
/-- `check8` (ascii.rs:75-77). -/
def check8 (x : BitVec 64) : Bool := x &&& 0x8080808080808080 == 0
/-- `check16` (ascii.rs:80-87): `_mm_movemask_epi8(x) == 0`; the miri branch is not modelled. -/
def check16 (x : V128) : Bool := movemask x == 0

/-- The loop `for _ in 0..3 { if src < end { … } }` of `check_tiny` (ascii.rs:108-113). -/
def check_tiny_loop (end_ : Nat) : Nat → Ptr → Byte → Prog Byte
  | 0, _, acc => pure acc
  | k + 1, src, acc =>
    if src.off < end_ then do
      let x ← rd src 0
      padd src 1
      check_tiny_loop end_ k (src.add 1) (acc ||| x)
    else check_tiny_loop end_ k src acc

/-- The last block of `check_tiny` (ascii.rs:105-116). -/
def check_tiny_rest (src : Ptr) (len : Nat) : Prog Bool := do
  padd src len
  let acc ← check_tiny_loop (src.off + len) 3 src 0
  return acc.ult 0x80

/-- `check_tiny` (ascii.rs:96-117). -/
def check_tiny (src : Ptr) (len : Nat) : Prog Bool :=
  if len = 8 then do return check8 (le64 (← loadBytes src 8))
  else if 4 ≤ len then do
    let x ← loadBytes src 4
    if !check4 (le32 x) then return false
    else do
      padd src 4
      check_tiny_rest (src.add 4) (len - 4)
  else check_tiny_rest src len

/-- `check_short` (ascii.rs:121-125); `len - 8` panics on underflow. -/
def check_short (src : Ptr) (len : Nat) : Prog Bool := do
  let x1 ← loadBytes src 8
  assert (8 ≤ len)
  padd src (len - 8)
  let x2 ← loadBytes (src.add (len - 8)) 8
  return check8 (le64 x1 ||| le64 x2)

/-- The conditional load of `check_medium` (ascii.rs:131-136). -/
def or_load (c : Bool) (src : Ptr) (k : Nat) (x : V128) : Prog V128 :=
  if c then do
    padd src k
    let y ← loadBytes (src.add k) 16
    return Intrin.or x (.ofList y)
  else pure x

/-- `check_medium` (ascii.rs:129-139); `len - 16` panics on underflow. -/
def check_medium (src : Ptr) (len : Nat) : Prog Bool := do
  let x ← loadBytes src 16
  let x ← or_load (32 ≤ len) src 16 (.ofList x)
  let x ← or_load (48 ≤ len) src 32 x
  assert (16 ≤ len)
  let x ← or_load true src (len - 16) x
  return check16 x

/-- Loop of `check_long` (ascii.rs:145-149): `none` is the early `return false`. -/
def check_long_loop (end_ : Nat) (src : Ptr) : Prog (Option Ptr) :=
  if src.off < end_ then do
    let x ← loadBytes src 64
    let x0 : V128 := .ofList x
    let x1 : V128 := .ofList (x.drop 16)
    let x2 : V128 := .ofList (x.drop 32)
    let x3 : V128 := .ofList (x.drop 48)
    if !check16 (Intrin.or (Intrin.or x0 x1) (Intrin.or x2 x3)) then pure none
    else do
      padd src 64
      check_long_loop end_ (src.add 64)
  else pure (some src)
termination_by end_ - src.off
decreasing_by simp only [Ptr.add]; omega

/-- `check_long` (ascii.rs:143-161). -/
def check_long (src : Ptr) (len : Nat) : Prog Bool := do
  padd src (len / 64 * 64)
  match ← check_long_loop (src.off + len / 64 * 64) src with
  | none => return false
  | some src =>
    if len % 64 = 0 then return true
    else if len % 64 ≤ 8 then check_tiny src (len % 64)
    else if len % 64 ≤ 16 then check_short src (len % 64)
    else check_medium src (len % 64)

/-- `is_ascii_sse2` (ascii.rs:52-174). -/
def is_ascii_sse2 (src : Ptr) (len : Nat) : Prog Bool :=
  if len ≤ 8 then check_tiny src len
  else if len ≤ 16 then check_short src len
  else if len < 64 then check_medium src len
  else check_long src len

/-- `is_ascii_simd` (ascii.rs:18-30); `x64` is `cfg(all(target_arch = "x86_64", target_feature = "sse2"))`. -/
def is_ascii_simd (x64 : Bool) (s : Isa) (src : Ptr) (len : Nat) : Prog Bool :=
  if x64 && s.is SSE2 then is_ascii_sse2 src len else is_ascii_simd_v256 s src len

/-! ### utf32.rs -/

/-- `is_unicode_scalar_value` (utf32.rs:17-19). -/
def is_unicode_scalar_value (x : BitVec 32) : Bool := ((x ^^^ 0xD800) - 0x800).ult (0x110000 - 0x800)

/-- Loop of `is_utf32le_fallback` (utf32.rs:26-30). -/
def is_utf32le_fallback_loop (end_ : Nat) (src : Ptr) (flag : Bool) : Prog Bool :=
  if src.off < end_ then do
    let x ← loadBytes src 4
    padd src 4
    is_utf32le_fallback_loop end_ (src.add 4) (flag && is_unicode_scalar_value (le32 x))
  else pure flag
termination_by end_ - src.off
decreasing_by simp only [Ptr.add]; omega

/-- `is_utf32le_fallback` (utf32.rs:22-33). -/
def is_utf32le_fallback (src : Ptr) (len : Nat) : Prog Bool := do
  padd src (4 * len)
  is_utf32le_fallback_loop (src.off + 4 * len) src true

/-- The body of the loop of `is_utf32le_simd` (utf32.rs:41-44). -/
def utf32_step (s : Isa) (x y : V256) : Option V256 := do
  let a1 ← v256_xor s x (← u32x8_splat s 0xD800)
  let a2 ← u32x8_sub s a1 (← u32x8_splat s 0x800)
  u32x8_max s y a2

/-- Loop of `is_utf32le_simd` (utf32.rs:40-47). -/
def is_utf32le_loop8 (s : Isa) (end_ : Nat) (src : Ptr) (y : V256) : Prog (Ptr × V256) :=
  if src.off < end_ then do
    let x ← v256_load s src
    let y ← liftO (utf32_step s x y)
    padd src 32
    is_utf32le_loop8 s end_ (src.add 32) y
  else pure (src, y)
termination_by end_ - src.off
decreasing_by simp only [Ptr.add]; omega

/-- `s.v256_all_zero(s.u32x8_lt(m, y))` (utf32.rs:50-51). -/
def utf32_final (s : Isa) (y : V256) : Option Bool := do
  let m ← u32x8_splat s (0x110000 - 0x800 - 1)
  v256_all_zero s (← u32x8_lt s m y)

/-- `is_utf32le_simd` (utf32.rs:36-55). -/
def is_utf32le_simd (s : Isa) (src : Ptr) (len : Nat) : Prog Bool := do
  let y ← liftO (u32x8_splat s 0)
  padd src (4 * (len / 8 * 8))
  let (src', y) ← is_utf32le_loop8 s (src.off + 4 * (len / 8 * 8)) src y
  let ans ← liftO (utf32_final s y)
  let tail ← is_utf32le_fallback src' (len % 8)
  return ans && tail

/-! ### vsimd bswap.rs -/

/-- The types implementing `BSwap` (bswap.rs:32-72). -/
inductive Elem where
  | u16 | u32 | u64
deriving DecidableEq, Repr

/-- `size_of::<T>()`. -/
def Elem.size : Elem → Nat
  | .u16 => 2 | .u32 => 4 | .u64 => 8
/-- `T::LANES` (bswap.rs:33, 47, 61). -/
def Elem.lanes : Elem → Nat
  | .u16 => 16 | .u32 => 8 | .u64 => 4
/-- `T::swap_single` (bswap.rs:36-38, 50-52, 64-66): `swap_bytes`, on the bytes of the integer in memory order. -/
def swap_single (x : List Byte) : List Byte := x.reverse
/-- `T::swap_simd` (bswap.rs:41-43, 55-57, 69-71). -/
def swap_simd (t : Elem) (s : Isa) (a : V256) : Option V256 :=
  match t with
  | .u16 => u16x16_bswap s a
  | .u32 => u32x8_bswap s a
  | .u64 => u64x4_bswap s a

/-- Loop of `bswap_fallback` (bswap.rs:80-86). -/
def bswap_fallback_loop (t : Elem) (end_ : Nat) (src dst : Ptr) : Prog Unit :=
  if src.off < end_ then do
    let x ← loadBytes src t.size
    storeBytes dst (swap_single x)
    padd src t.size
    padd dst t.size
    bswap_fallback_loop t end_ (src.add t.size) (dst.add t.size)
  else pure ()
termination_by end_ - src.off
decreasing_by cases t <;> simp only [Ptr.add, Elem.size] <;> omega

/-- `bswap_fallback` (bswap.rs:75-87). -/
def bswap_fallback (t : Elem) (src : Ptr) (len : Nat) (dst : Ptr) : Prog Unit := do
  padd src (t.size * len)
  bswap_fallback_loop t (src.off + t.size * len) src dst

/-- Loop of `bswap_simd` (bswap.rs:95-101); returns the final `src` and `dst`. -/
def bswap_simd_loop (t : Elem) (s : Isa) (end_ : Nat) (src dst : Ptr) : Prog (Ptr × Ptr) :=
  if src.off < end_ then do
    let x ← v256_load s src
    let y ← liftO (swap_simd t s x)
    v256_store s dst y
    padd src (t.size * t.lanes)
    padd dst (t.size * t.lanes)
    bswap_simd_loop t s end_ (src.add (t.size * t.lanes)) (dst.add (t.size * t.lanes))
  else pure (src, dst)
termination_by end_ - src.off
decreasing_by cases t <;> simp only [Ptr.add, Elem.size, Elem.lanes] <;> omega

/-- `bswap_simd` (bswap.rs:90-105). -/
def bswap_simd (t : Elem) (s : Isa) (src : Ptr) (len : Nat) (dst : Ptr) : Prog Unit := do
  padd src (t.size * (len / t.lanes * t.lanes))
  let (src', dst') ← bswap_simd_loop t s (src.off + t.size * (len / t.lanes * t.lanes)) src dst
  bswap_fallback t src' (len % t.lanes) dst'

/-! ### multiversion.rs: dispatch lists -/

/-- Targets of `is_utf32le` (multiversion.rs:12-19); "neon" stands for both ARM architectures. -/
def is_utf32le_targets : List Isa := [.avx2, .sse41, .neon32, .neon64, .wasm128]
/-- Targets of `utf32_swap_endianness` and `utf16_swap_endianness` (multiversion.rs:21-37). -/
def swap_targets : List Isa := [.avx2, .ssse3, .neon32, .neon64, .wasm128]

/-- `multiversion::is_ascii::auto`, `none` = fallback. -/
def is_ascii_auto (x64 : Bool) (i : Option Isa) (src : Ptr) (len : Nat) : Prog Bool :=
  match i with
  | none => is_ascii_fallback src len
  | some s => is_ascii_simd x64 s src len
/-- `multiversion::is_utf32le::auto`. -/
def is_utf32le_auto (i : Option Isa) (src : Ptr) (len : Nat) : Prog Bool :=
  match i with
  | none => is_utf32le_fallback src len
  | some s => is_utf32le_simd s src len
/-- `multiversion::utf{16,32}_swap_endianness::auto` (utf16.rs:4-11, utf32.rs:4-11). -/
def swap_auto (t : Elem) (i : Option Isa) (src : Ptr) (len : Nat) (dst : Ptr) : Prog Unit :=
  match i with
  | none => bswap_fallback t src len dst
  | some s => bswap_simd t s src len dst

/-! ### lib.rs -/

/-- `is_ascii` (lib.rs:44-47). -/
def is_ascii (x64 : Bool) (i : Option Isa) (data : Slice) : Prog Bool := is_ascii_auto x64 i data.ptr data.len

/-- `from_ascii` (lib.rs:52-54): the returned `&str` is the slice itself. -/
def from_ascii (x64 : Bool) (i : Option Isa) (data : Slice) : Prog (Option Slice) := do
  return if ← is_ascii x64 i data then some data else none

/-- `is_utf32le` (lib.rs:59-62). -/
def is_utf32le (i : Option Isa) (data : Slice) : Prog Bool := is_utf32le_auto i data.ptr data.len

/-- `utf32_swap_endianness_inplace` (lib.rs:66-71) for `u32`, `utf16_swap_endianness_inplace` (lib.rs:90-95) for `u16`.
`data.len` counts elements. -/
def swap_endianness_inplace (t : Elem) (i : Option Isa) (data : Slice) : Prog Unit := swap_auto t i data.ptr data.len data.ptr

/-- `utf32_swap_endianness` (lib.rs:79-86) for `u32`, `utf16_swap_endianness` (lib.rs:103-110) for `u16`. -/
def swap_endianness (t : Elem) (i : Option Isa) (src dst : Slice) : Prog Slice := do
  assert (src.len ≤ dst.len)
  swap_auto t i src.ptr src.len dst.ptr
  return ⟨dst.ptr, src.len⟩

end Simd.Unicode
