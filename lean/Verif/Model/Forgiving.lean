import Verif.Model.Base64
/-
Whitespace scanning and forgiving decoding: crates/base64-simd/src/{ascii,forgiving}.rs.
-/
namespace Simd.Base64
open Vs IsaId

/-! ### ascii.rs -/

/-- `u8::is_ascii_whitespace` of the standard library: TAB, LF, FF, CR, SPACE. -/
def is_ascii_whitespace (c : Byte) : Bool := c == 0x09 || c == 0x0a || c == 0x0c || c == 0x0d || c == 0x20

/-- `TABLE` of `lookup_ascii_whitespace` (ascii.rs:10-21). -/
def WHITESPACE_TABLE : List Byte := (List.range 256).map fun i => if is_ascii_whitespace (BitVec.ofNat 8 i) then 0xff else 0

/-- `lookup_ascii_whitespace` (ascii.rs:9-23); an index outside the table is undefined behaviour. -/
def lookup_ascii_whitespace (c : Byte) : Prog Byte := tread WHITESPACE_TABLE c.toNat

/-- `has_ascii_whitespace` (ascii.rs:26-46). -/
def has_ascii_whitespace {n : Nat} [Scalable n] (s : Isa) (x : Vec n) : Option Bool := do
  let m1 ← Scalable.i8xn_lt s (← Scalable.u8xn_sub s x (← Scalable.u8xn_splat s 0x89)) (← Scalable.u8xn_splat s (BitVec.ofInt 8 (-128 + 5)))
  let m2 ← Scalable.u8xn_eq s x (← Scalable.u8xn_splat s 0x0b)
  let m3 ← Scalable.u8xn_eq s x (← Scalable.u8xn_splat s 0x20)
  Scalable.mask8xn_any s (← Scalable.or s (← Scalable.andnot s m1 m2) m3)

/-- The loop of `find_non_ascii_whitespace_short` (ascii.rs:52-57). -/
def find_short_loop (end_ : Nat) (src : Ptr) : Prog Ptr :=
  if src.off < end_ then do
    let x ← rd src 0
    let flag ← lookup_ascii_whitespace x
    if flag ≠ 0 then pure src
    else do
      padd src 1
      find_short_loop end_ (src.add 1)
  else pure src
termination_by end_ - src.off
decreasing_by simp only [Ptr.add]; omega

/-- `find_non_ascii_whitespace_short` (ascii.rs:49-60), `find_non_ascii_whitespace_fallback` (ascii.rs:63-65). -/
def find_non_ascii_whitespace_short (src : Ptr) (len : Nat) : Prog Nat := do
  padd src len
  let p ← find_short_loop (src.off + len) src
  offset_from p src

/-- The 32-byte loop of `find_non_ascii_whitespace_simd` (ascii.rs:73-79). -/
def find_loop32 (s : Isa) (end_ : Nat) (src : Ptr) : Prog Ptr :=
  if src.off < end_ then do
    let x ← v256_load s src
    let b ← liftO (has_ascii_whitespace s x)
    if b then pure src
    else do
      padd src 32
      find_loop32 s end_ (src.add 32)
  else pure src
termination_by end_ - src.off
decreasing_by simp only [Ptr.add]; omega

/-- The 16-byte loop of `find_non_ascii_whitespace_simd` (ascii.rs:88-94). -/
def find_loop16 (s : Isa) (end_ : Nat) (src : Ptr) : Prog Ptr :=
  if src.off < end_ then do
    let x ← v128_load s src
    let b ← liftO (has_ascii_whitespace s x)
    if b then pure src
    else do
      padd src 16
      find_loop16 s end_ (src.add 16)
  else pure src
termination_by end_ - src.off
decreasing_by simp only [Ptr.add]; omega

/-- The vector part of `find_non_ascii_whitespace_simd` (ascii.rs:71-95): the final `src`. -/
def find_simd_part (s : Isa) (src : Ptr) (len : Nat) : Prog Ptr :=
  if s.is AVX2 then do
    padd src (len / 32 * 32)
    let src ← find_loop32 s (src.off + len / 32 * 32) src
    if len % 32 ≥ 16 then do
      let x ← v128_load s src
      let b ← liftO (has_ascii_whitespace s x)
      if !b then do
        padd src 16
        pure (src.add 16)
      else pure src
    else pure src
  else do
    padd src (len / 16 * 16)
    find_loop16 s (src.off + len / 16 * 16) src

/-- `find_non_ascii_whitespace_simd` (ascii.rs:68-100); `len - checked_len` panics on underflow. -/
def find_non_ascii_whitespace_simd (s : Isa) (src : Ptr) (len : Nat) : Prog Nat := do
  let p ← find_simd_part s src len
  let checked_len ← offset_from p src
  assert (checked_len ≤ len)
  let pos ← find_non_ascii_whitespace_short p (len - checked_len)
  return checked_len + pos

/-- `find_non_ascii_whitespace` (ascii.rs:104-107), `auto` resolved to implementation `i`. -/
def find_non_ascii_whitespace (i : Option Isa) (data : Slice) : Prog Nat :=
  match i with
  | none => find_non_ascii_whitespace_short data.ptr data.len
  | some s => find_non_ascii_whitespace_simd s data.ptr data.len

/-- The loop of `remove_ascii_whitespace_fallback` (ascii.rs:115-122): the final `dst`. -/
def remove_loop (end_ : Nat) (src dst : Ptr) : Prog Ptr :=
  if src.off < end_ then do
    let x ← rd src 0
    let flag ← lookup_ascii_whitespace x
    if flag = 0 then do
      wrt dst 0 x
      padd dst 1
      padd src 1
      remove_loop end_ (src.add 1) (dst.add 1)
    else do
      padd src 1
      remove_loop end_ (src.add 1) dst
  else pure dst
termination_by end_ - src.off
decreasing_by all_goals (simp only [Ptr.add]; omega)

/-- `remove_ascii_whitespace_fallback` (ascii.rs:111-125). -/
def remove_ascii_whitespace_fallback (src : Ptr) (len : Nat) (dst : Ptr) : Prog Nat := do
  padd src len
  let d ← remove_loop (src.off + len) src dst
  offset_from d dst

/-- `remove_ascii_whitespace_inplace` (ascii.rs:129-147) with its `debug_assert!`s; `get_unchecked_mut` behind the end is undefined behaviour. -/
def remove_ascii_whitespace_inplace (fi : Option Isa) (data : Slice) : Prog Slice := do
  let pos ← find_non_ascii_whitespace fi data
  assert (pos ≤ data.len)
  if pos = data.len then pure data
  else do
    padd data.ptr pos
    let rem ← remove_ascii_whitespace_fallback (data.ptr.add pos) (data.len - pos) (data.ptr.add pos)
    assert (rem ≤ data.len - pos)
    if pos + rem ≤ data.len then pure ⟨data.ptr, pos + rem⟩ else .ub

/-! ### forgiving.rs

`fi` is the implementation chosen for the whitespace scanner, `di` the one chosen for the decoder. The `debug_assert!`s are modelled as in the dev
profile, that is as assertions. -/

/-- `core::ptr::copy_nonoverlapping(src, dst, n)` on bytes: overlapping regions are undefined behaviour. -/
def copy_nonoverlapping (src dst : Ptr) (n : Nat) : Prog Unit :=
  if src.buf = dst.buf ∧ src.off < dst.off + n ∧ dst.off < src.off + n then .ub
  else do
    let bs ← loadBytes src n
    storeBytes dst bs

/-- `Vec::with_capacity(n)`; the allocator may round the capacity up by any `extra`; panics on capacity overflow. -/
def vec_with_capacity (P : Plat) (extra n : Nat) : Prog RVec :=
  if n + extra ≤ P.isizeMax then .alloc (n + extra) fun b => .pure ⟨b, 0, n + extra⟩ else .panic

/-- `forgiving_decode_inplace` (forgiving.rs:21-24). -/
def forgiving_decode_inplace (fi di : Option Isa) (data : Slice) : Prog Slice := do
  let data ← remove_ascii_whitespace_inplace fi data
  decode_inplace di STANDARD_FORGIVING data

/-- The `unsafe` block shared by `forgiving_decode` (forgiving.rs:48-60) and `forgiving_decode_to_vec` (forgiving.rs:84-96):
copies `src` without whitespace to `dst` and decodes it there. -/
def copy_and_decode (di : Option Isa) (src : Slice) (pos : Nat) (dst : Ptr) : Prog Slice := do
  copy_nonoverlapping src.ptr dst pos
  padd src.ptr pos
  padd dst pos
  let rem ← remove_ascii_whitespace_fallback (src.ptr.add pos) (src.len - pos) (dst.add pos)
  assert (rem ≤ src.len - pos)
  decode_inplace di STANDARD_FORGIVING ⟨dst, pos + rem⟩

/-- `forgiving_decode` (forgiving.rs:38-61). -/
def forgiving_decode (fi di : Option Isa) (src dst : Slice) : Prog Slice := do
  ensure (src.len ≤ dst.len)
  let pos ← find_non_ascii_whitespace fi src
  assert (pos ≤ src.len)
  if pos = src.len then decode di STANDARD_FORGIVING src dst
  else copy_and_decode di src pos dst.ptr

/-- `forgiving_decode_to_vec` (forgiving.rs:74-101). -/
def forgiving_decode_to_vec (P : Plat) (extra : Nat) (fi di : Option Isa) (data : Slice) : Prog RVec := do
  let pos ← find_non_ascii_whitespace fi data
  assert (pos ≤ data.len)
  if pos = data.len then decode_to_vec P di STANDARD_FORGIVING data
  else do
    let vec ← vec_with_capacity P extra data.len
    let ans ← copy_and_decode di data pos ⟨vec.buf, 0⟩
    vec.set_len ans.len

end Simd.Base64
