import Verif.Model.Vec
/-
The public helpers of vsimd that no codec depends on for its result: `tools::unroll`, `tools::print_fn_table`, `pod::align`, and the
conversions between vectors and byte arrays (crates/vsimd/src/{tools,pod,vector}.rs).
-/
namespace Simd.Tools

/-! ### tools::unroll -/

/-- What running a closure can do: `ok` the state after it returned, `error` the state when it panicked. -/
abbrev Run (σ : Type) := Except σ σ

/-- `iter().for_each(&mut f)`: `f` mutates the state `σ` it captures. -/
def forEach {α σ : Type} (f : σ → α → Run σ) : List α → σ → Run σ
  | [], s => .ok s
  | x :: xs, s => match f s x with
    | .ok s' => forEach f xs s'
    | .error s' => .error s'

/-- The loop over `slice.chunks_exact(k)` (tools.rs:65-68): while at least `k` elements are left, the next `k` go to `f`. Returns the state
and `iter.remainder()`. `k` is not 0 here. -/
def unrollChunks {α σ : Type} (f : σ → α → Run σ) (k : Nat) (hk : k ≠ 0) (xs : List α) (s : σ) : Except σ (σ × List α) :=
  if _h : k ≤ xs.length then
    match forEach f (xs.take k) s with
    | .ok s' => unrollChunks f k hk (xs.drop k) s'
    | .error s' => .error s'
  else .ok (s, xs)
termination_by xs.length
decreasing_by simp only [List.length_drop]; omega

/-- `unroll(slice, chunk_size, f)` (tools.rs:64-70). `chunks_exact(0)` panics before `f` is called. -/
def unroll {α σ : Type} (xs : List α) (chunk_size : Nat) (f : σ → α → Run σ) (s : σ) : Run σ :=
  if hk : chunk_size = 0 then .error s
  else match unrollChunks f chunk_size hk xs s with
    | .ok (s', rest) => forEach f rest s'
    | .error s' => .error s'

/-! ### tools::print_fn_table -/

/-- A hexadecimal digit as `{:X}` prints it. -/
def upperDigit (n : Nat) : Char := if n < 10 then Char.ofNat (48 + n) else Char.ofNat (55 + n)
/-- A hexadecimal digit as `{:x}` prints it. -/
def lowerDigit (n : Nat) : Char := if n < 10 then Char.ofNat (48 + n) else Char.ofNat (87 + n)
/-- `{val:0>2X}`: at least one digit, filled with zeros on the left up to two characters. -/
def hex2 (v : Byte) : List Char :=
  if v.toNat < 16 then ['0', upperDigit v.toNat] else [upperDigit (v.toNat / 16), upperDigit (v.toNat % 16)]

/-- One round of the loop (tools.rs:110-125): what it prints for `c`. -/
def printEntry (is_primary : Byte → Bool) (f : Byte → Byte) (c : Byte) : List Char :=
  let val := f c
  (if c &&& 0x0f = 0 then ['\n', lowerDigit (c >>> 4).toNat] ++ " | ".toList else []) ++
  (if is_primary c then "\x1b[1;31m".toList ++ hex2 val ++ "\x1b[0m  ".toList
   else if 0x80 ≤ val.toNat then "\x1b[1;36m".toList ++ hex2 val ++ "\x1b[0m  ".toList
   else "\x1b[1;32m".toList ++ hex2 val ++ "\x1b[0m  ".toList)

/-- `for c in 0..=255u8`. -/
def printLoop (is_primary : Byte → Bool) (f : Byte → Byte) : Nat → Nat → List Char → List Char
  | 0, _, out => out
  | fuel + 1, c, out => printLoop is_primary f fuel (c + 1) (out ++ printEntry is_primary f (BitVec.ofNat 8 c))

/-- `print_fn_table` (tools.rs:108-128): all that it writes to the standard output. The closures are pure here. -/
def print_fn_table (is_primary : Byte → Bool) (f : Byte → Byte) : List Char :=
  printLoop is_primary f 256 0 "     0   1   2   3   4   5   6   7   8   9   A   B   C   D   E   F".toList ++ ['\n', '\n']

/-! ### pod::align -/

/-- A slice of `len` elements of `size` bytes each at address `addr`, with its bytes. -/
structure Elems where
  addr : Nat
  size : Nat
  bytes : List Byte

/-- The number of elements. -/
def Elems.len (s : Elems) : Nat := s.bytes.length / s.size

/-- `ptr.align_offset(a)` for elements of `size` bytes: the smallest number of elements after which an element lies at a multiple of `a`;
`usize::MAX`, here `none`, if there is none. -/
def alignOffset (addr size a : Nat) : Option Nat := (List.range a).find? fun k => (addr + k * size) % a == 0

/-- `pod::align` (pod.rs:23-25), which is `<[T]>::align_to::<U>` of the standard library; size `usz` and alignment `ualign` are those of
`U`. The empty middle slice of the first branch is `&[]`, whose address is any aligned one. The types `T`, `U` are not zero-sized. -/
def align (s : Elems) (usz ualign : Nat) : Elems × Elems × Elems :=
  let none' := (s, ⟨ualign, usz, []⟩, ⟨s.addr, s.size, []⟩)
  match alignOffset s.addr s.size ualign with
  | none => none'
  | some offset =>
    if s.len < offset then none'
    else
      let left := s.bytes.take (offset * s.size)
      let rest := s.bytes.drop (offset * s.size)
      let g := Nat.gcd s.size usz
      let ts := usz / g
      let us := s.size / g
      let rest_len := s.len - offset
      let us_len := rest_len / ts * us
      let ts_len := rest_len % ts
      (⟨s.addr, s.size, left⟩,
       ⟨s.addr + offset * s.size, usz, rest.take (us_len * usz)⟩,
       ⟨s.addr + offset * s.size + (rest_len - ts_len) * s.size, s.size, rest.drop ((rest_len - ts_len) * s.size)⟩)

/-! ### vector.rs -/

/-- `V512` (vector.rs:25-27, 48-50). -/
abbrev V512 := Vec 64

/-- `V512::from_v256x2` (vector.rs:223-225): a transmute of the array `[x.0, x.1]`. -/
def from_v256x2 (a b : V256) : V512 := ⟨fun i => if i < 32 then a.lane i else b.lane (i - 32)⟩
/-- `V512::to_v256x2` (vector.rs:229-232). -/
def to_v256x2 (a : V512) : V256 × V256 := (⟨a.lane⟩, ⟨fun i => a.lane (32 + i)⟩)
/-- `V256::x2` (vector.rs:203-205). -/
def x2_512 (a : V256) : V512 := from_v256x2 a a
/-- `V64::to_u64` (vector.rs:137-139) on a little-endian target. -/
def to_u64 (a : V64) : BitVec 64 :=
  a.lane 7 ++ a.lane 6 ++ a.lane 5 ++ a.lane 4 ++ a.lane 3 ++ a.lane 2 ++ a.lane 1 ++ a.lane 0
/-- `V512::double_bytes` (vector.rs:236-238). -/
def double_bytes_512 (bytes : List Byte) : V512 := Vec.ofList (bytes ++ bytes)

end Simd.Tools
