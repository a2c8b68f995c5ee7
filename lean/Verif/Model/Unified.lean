import Verif.Model.Simd
/-
The element-generic layer of vsimd (crates/vsimd/src/unified.rs) and the methods of `SIMD128`, `SIMD256`, `Scalable`
and the functions of `mask` and `simulation` that no encoder or decoder uses and that
`Verif.Model.Simd` therefore leaves out.

As there, every operation has the branches of the Rust code in the same order and `none` is a panic. A chain of
`if matches_isa!(…) { if is_pod_type!(…) { return … } … }` blocks is written with `<|>`: a block that returns nothing
falls through to the next one, and the end of the chain is `unreachable!()`. `f32`/`f64` branches (of `max` and `min`) are
not modelled: no method of the traits selects them.
-/
namespace Simd

/-- The integer element types `T` of unified.rs (pod.rs:7-18). -/
inductive Elem where
  | u8 | u16 | u32 | u64 | i8 | i16 | i32 | i64
deriving DecidableEq, Repr

/-- `size_of::<T>()`. -/
def Elem.bytes : Elem → Nat
  | .u8 | .i8 => 1
  | .u16 | .i16 => 2
  | .u32 | .i32 => 4
  | .u64 | .i64 => 8

/-- The number whose base-256 digits, least significant first, are `f 0, …, f (w-1)`. -/
def leNat (f : Nat → Nat) : Nat → Nat
  | 0 => 0
  | w + 1 => f 0 + 256 * leNat (fun k => f (k + 1)) w

/-- Lane `j` of a vector of `w`-byte elements (little-endian). -/
def Vec.getN {n : Nat} (w : Nat) (a : Vec n) (j : Nat) : BitVec (8 * w) :=
  BitVec.ofNat (8 * w) (leNat (fun k => (a.lane (w * j + k)).toNat) w)
/-- Vector from its `w`-byte lanes. -/
def Vec.ofN {n : Nat} (w : Nat) (f : Nat → BitVec (8 * w)) : Vec n := ⟨fun i => byteOf (f (i / w)) (i % w)⟩

namespace Intrin
variable {n : Nat}

/-- A lane-wise binary operation on `w`-byte lanes. -/
def mapN (w : Nat) (f : BitVec (8 * w) → BitVec (8 * w) → BitVec (8 * w)) (a b : Vec n) : Vec n :=
  .ofN w fun j => f (a.getN w j) (b.getN w j)

/-- `_mm_set1_epi{8,16,32}`, `_mm_set1_epi64x`, `_mm256_set1_epi8`, `vld1q_dup_u*`, wasm `u*_splat`. -/
def set1N (w : Nat) (x : BitVec (8 * w)) : Vec n := .ofN w fun _ => x
/-- `_mm_add_epi*`, `_mm256_add_epi*`, `vaddq_u*`, wasm `u*_add`. -/
def addN (w : Nat) (a b : Vec n) : Vec n := mapN w (· + ·) a b
/-- `_mm_sub_epi*`, `_mm256_sub_epi*`, `vsubq_u*`, wasm `u*_sub`. -/
def subN (w : Nat) (a b : Vec n) : Vec n := mapN w (· - ·) a b
/-- `_mm_cmpeq_epi*`, `_mm256_cmpeq_epi*`, `vceqq_u*`, wasm `u*_eq`. -/
def eqN (w : Nat) (a b : Vec n) : Vec n := mapN w (fun x y => maskOf (8 * w) (x == y)) a b
/-- `_mm_cmplt_epi*`, `vcltq_s*`, wasm `i*_lt`. -/
def ltS (w : Nat) (a b : Vec n) : Vec n := mapN w (fun x y => maskOf (8 * w) (x.slt y)) a b
/-- `_mm256_cmpgt_epi*`. -/
def gtS (w : Nat) (a b : Vec n) : Vec n := mapN w (fun x y => maskOf (8 * w) (y.slt x)) a b
/-- `vcltq_u*`, wasm `u*_lt`. -/
def ltU (w : Nat) (a b : Vec n) : Vec n := mapN w (fun x y => maskOf (8 * w) (x.ult y)) a b
/-- `_mm_max_epu*`, `_mm256_max_epu*`, `vmaxq_u*`, wasm `u*_max`. -/
def maxU (w : Nat) (a b : Vec n) : Vec n := mapN w (fun x y => if x.ult y then y else x) a b
/-- `_mm_min_epu*`, `_mm256_min_epu*`, `vminq_u*`, wasm `u*_min`. -/
def minU (w : Nat) (a b : Vec n) : Vec n := mapN w (fun x y => if x.ult y then x else y) a b
/-- `_mm_max_epi*`, `_mm256_max_epi*`, `vmaxq_s*`, wasm `i*_max`. -/
def maxS (w : Nat) (a b : Vec n) : Vec n := mapN w (fun x y => if x.slt y then y else x) a b
/-- `_mm_min_epi*`, `_mm256_min_epi*`, `vminq_s*`, wasm `i*_min`. -/
def minS (w : Nat) (a b : Vec n) : Vec n := mapN w (fun x y => if x.slt y then x else y) a b
/-- Saturation to a signed `w`-byte integer. -/
def satS (w : Nat) (z : Int) : BitVec (8 * w) := BitVec.ofInt (8 * w) (max (-2 ^ (8 * w - 1)) (min (2 ^ (8 * w - 1) - 1) z))
/-- `_mm_adds_epi*`, `_mm256_adds_epi*`, `vqaddq_s*`, wasm `i*_add_sat`. -/
def addsS (w : Nat) (a b : Vec n) : Vec n := mapN w (fun x y => satS w (x.toInt + y.toInt)) a b
/-- `_mm_subs_epi*`, `_mm256_subs_epi*`, `vqsubq_s*`, wasm `i*_sub_sat`. -/
def subsS (w : Nat) (a b : Vec n) : Vec n := mapN w (fun x y => satS w (x.toInt - y.toInt)) a b
/-- `_mm_adds_epu*`, `_mm256_adds_epu*`, `vqaddq_u*`, wasm `u*_add_sat`. -/
def addsU (w : Nat) (a b : Vec n) : Vec n :=
  mapN w (fun x y => BitVec.ofNat (8 * w) (min (2 ^ (8 * w) - 1) (x.toNat + y.toNat))) a b
/-- `_mm_subs_epu*`, `_mm256_subs_epu*`, `vqsubq_u*`, wasm `u*_sub_sat`. -/
def subsU (w : Nat) (a b : Vec n) : Vec n := mapN w (fun x y => BitVec.ofNat (8 * w) (x.toNat - y.toNat)) a b
/-- `_mm_mullo_epi32`, `_mm256_mullo_epi32`, `vmulq_s32`, `i32x4_mul`: low half of the product. -/
def mullo32 (a b : Vec n) : Vec n := mapN 4 (· * ·) a b
/-- `_mm_mulhi_epi16`, `_mm256_mulhi_epi16`: high half of the signed product. -/
def mulhi_i16 (a b : Vec n) : Vec n := mapN 2 (fun x y => BitVec.ofInt 16 (x.toInt * y.toInt / 65536)) a b

/-- `_mm_unpacklo_epi{16,32,64}` and `_mm256_…` on `w`-byte elements, per 128-bit half; `vzip1q_*`, `vzipq_*().0`. -/
def unpackloN (w : Nat) (a b : Vec n) : Vec n := .ofN w fun j =>
  let m := 16 / w
  if j % 2 = 0 then a.getN w (j / m * m + j % m / 2) else b.getN w (j / m * m + j % m / 2)
/-- `_mm_unpackhi_epi{16,32,64}` and `_mm256_…` on `w`-byte elements, per 128-bit half; `vzip2q_*`, `vzipq_*().1`. -/
def unpackhiN (w : Nat) (a b : Vec n) : Vec n := .ofN w fun j =>
  let m := 16 / w
  if j % 2 = 0 then a.getN w (j / m * m + m / 2 + j % m / 2) else b.getN w (j / m * m + m / 2 + j % m / 2)
/-- `vuzp2q_u8`, `vuzpq_u8().1`: odd lanes of `a` then of `b`. -/
def uzp2_128 (a b : V128) : V128 := ⟨fun i => if i < 8 then a.lane (2 * i + 1) else b.lane (2 * (i - 8) + 1)⟩
/-- wasm `u{8x16,16x8,32x4,64x2}_shuffle::<I0, I1, …>(a, b)`: the constants index the lanes of `a` followed by those
of `b`. -/
def wasm_shuffle (w : Nat) (idx : List Nat) (a b : V128) : V128 := .ofN w fun j =>
  let k := idx.getD j 0
  if k < 16 / w then a.getN w k else b.getN w (k - 16 / w)
/-- `[a[i], b[i]]` on `[u64; 2]` arrays (simd128.rs:985-989, 1011-1015). -/
def pair64 (i : Nat) (a b : V128) : V128 := .ofN 8 fun j => if j = 0 then a.getN 8 i else b.getN 8 i

end Intrin

namespace Vs
open IsaId Intrin

/-! ### unified.rs -/

/-- `splat::<S, T, V128>` (unified.rs:46-97). -/
def splat128 (s : Isa) (t : Elem) (x : BitVec (8 * t.bytes)) : Option V128 :=
  (if s.is SSE2 then some (set1N t.bytes x) else none) <|>
  (if s.is NEON then some (set1N t.bytes x) else none) <|>
  (if s.is WASM128 then some (set1N t.bytes x) else none)
/-- `splat::<S, T, V256>` (unified.rs:34-45): only the 8-bit types have an AVX2 branch. -/
def splat256 (s : Isa) (t : Elem) (x : BitVec (8 * t.bytes)) : Option V256 :=
  (if s.is AVX2 then
    match t with
    | .u8 | .i8 => some (set1N t.bytes x)
    | _ => none
  else none) <|> do return (← splat128 s t x).x2

/-- `add::<S, T, V128>` (unified.rs:125-176). -/
def add128 (s : Isa) (t : Elem) (a b : V128) : Option V128 :=
  (if s.is SSE2 then
    match t with
    | .u8 | .i8 => some (addN 1 a b)
    | .u16 | .i16 => some (addN 2 a b)
    | .u32 | .i32 => some (addN 4 a b)
    | .u64 | .i64 => some (addN 8 a b)
  else none) <|>
  (if s.is NEON then
    match t with
    | .u8 | .i8 => some (addN 1 a b)
    | .u16 | .i16 => some (addN 2 a b)
    | .u32 | .i32 => some (addN 4 a b)
    | .u64 | .i64 => some (addN 8 a b)
  else none) <|>
  (if s.is WASM128 then
    match t with
    | .u8 | .i8 => some (addN 1 a b)
    | .u16 | .i16 => some (addN 2 a b)
    | .u32 | .i32 => some (addN 4 a b)
    | .u64 | .i64 => some (addN 8 a b)
  else none)
/-- `add::<S, T, V256>` (unified.rs:101-124). -/
def add256 (s : Isa) (t : Elem) (a b : V256) : Option V256 :=
  (if s.is AVX2 then
    match t with
    | .u8 | .i8 => some (addN 1 a b)
    | .u16 | .i16 => some (addN 2 a b)
    | .u32 | .i32 => some (addN 4 a b)
    | .u64 | .i64 => some (addN 8 a b)
  else none) <|> vop2 (add128 s t) a b

/-- `sub::<S, T, V128>` (unified.rs:204-255). -/
def sub128 (s : Isa) (t : Elem) (a b : V128) : Option V128 :=
  (if s.is SSE2 then
    match t with
    | .u8 | .i8 => some (subN 1 a b)
    | .u16 | .i16 => some (subN 2 a b)
    | .u32 | .i32 => some (subN 4 a b)
    | .u64 | .i64 => some (subN 8 a b)
  else none) <|>
  (if s.is NEON then
    match t with
    | .u8 | .i8 => some (subN 1 a b)
    | .u16 | .i16 => some (subN 2 a b)
    | .u32 | .i32 => some (subN 4 a b)
    | .u64 | .i64 => some (subN 8 a b)
  else none) <|>
  (if s.is WASM128 then
    match t with
    | .u8 | .i8 => some (subN 1 a b)
    | .u16 | .i16 => some (subN 2 a b)
    | .u32 | .i32 => some (subN 4 a b)
    | .u64 | .i64 => some (subN 8 a b)
  else none)
/-- `sub::<S, T, V256>` (unified.rs:180-203). -/
def sub256 (s : Isa) (t : Elem) (a b : V256) : Option V256 :=
  (if s.is AVX2 then
    match t with
    | .u8 | .i8 => some (subN 1 a b)
    | .u16 | .i16 => some (subN 2 a b)
    | .u32 | .i32 => some (subN 4 a b)
    | .u64 | .i64 => some (subN 8 a b)
  else none) <|> vop2 (sub128 s t) a b

/-- `eq::<S, T, V128>` (unified.rs:283-332): no 64-bit branch on SSE2 nor on 32-bit ARM. -/
def eq128 (s : Isa) (t : Elem) (a b : V128) : Option V128 :=
  (if s.is SSE2 then
    match t with
    | .u8 | .i8 => some (eqN 1 a b)
    | .u16 | .i16 => some (eqN 2 a b)
    | .u32 | .i32 => some (eqN 4 a b)
    | _ => none
  else none) <|>
  (if s.is NEON then
    match t with
    | .u8 | .i8 => some (eqN 1 a b)
    | .u16 | .i16 => some (eqN 2 a b)
    | .u32 | .i32 => some (eqN 4 a b)
    | .u64 | .i64 => if s.aarch64 then some (eqN 8 a b) else none
  else none) <|>
  (if s.is WASM128 then
    match t with
    | .u8 | .i8 => some (eqN 1 a b)
    | .u16 | .i16 => some (eqN 2 a b)
    | .u32 | .i32 => some (eqN 4 a b)
    | .u64 | .i64 => some (eqN 8 a b)
  else none)
/-- `eq::<S, T, V256>` (unified.rs:259-282). -/
def eq256 (s : Isa) (t : Elem) (a b : V256) : Option V256 :=
  (if s.is AVX2 then
    match t with
    | .u8 | .i8 => some (eqN 1 a b)
    | .u16 | .i16 => some (eqN 2 a b)
    | .u32 | .i32 => some (eqN 4 a b)
    | .u64 | .i64 => some (eqN 8 a b)
  else none) <|> vop2 (eq128 s t) a b

/-- `lt::<S, T, V128>` (unified.rs:381-478): SSE2 compares `u8` through `max` and `u16`, `u32` by flipping the sign bits; no
64-bit branch on SSE2, `i64` and `u64` only on 64-bit NEON, `i64` but not `u64` on WASM. -/
def lt128 (s : Isa) (t : Elem) (a b : V128) : Option V128 :=
  (if s.is SSE2 then
    match t with
    | .i8 => some (ltS 1 a b)
    | .i16 => some (ltS 2 a b)
    | .i32 => some (ltS 4 a b)
    | .u8 =>
      let c := eqN 1 a (maxU 1 a b)
      some (Intrin.xor c (eqN 1 a a))
    | .u16 =>
      let m := set1N 2 0x8000#16
      some (ltS 2 (Intrin.xor a m) (Intrin.xor b m))
    | .u32 =>
      let m := set1N 4 0x80000000#32
      some (ltS 4 (Intrin.xor a m) (Intrin.xor b m))
    | _ => none
  else none) <|>
  (if s.is NEON then
    match t with
    | .i8 => some (ltS 1 a b)
    | .i16 => some (ltS 2 a b)
    | .i32 => some (ltS 4 a b)
    | .i64 => if s.aarch64 then some (ltS 8 a b) else none
    | .u8 => some (ltU 1 a b)
    | .u16 => some (ltU 2 a b)
    | .u32 => some (ltU 4 a b)
    | .u64 => if s.aarch64 then some (ltU 8 a b) else none
  else none) <|>
  (if s.is WASM128 then
    match t with
    | .i8 => some (ltS 1 a b)
    | .i16 => some (ltS 2 a b)
    | .i32 => some (ltS 4 a b)
    | .i64 => some (ltS 8 a b)
    | .u8 => some (ltU 1 a b)
    | .u16 => some (ltU 2 a b)
    | .u32 => some (ltU 4 a b)
    | .u64 => none
  else none)
/-- `lt::<S, T, V256>` (unified.rs:336-380): AVX2 has no `u64` branch. -/
def lt256 (s : Isa) (t : Elem) (a b : V256) : Option V256 :=
  (if s.is AVX2 then
    match t with
    | .i8 => some (gtS 1 b a)
    | .i16 => some (gtS 2 b a)
    | .i32 => some (gtS 4 b a)
    | .i64 => some (gtS 8 b a)
    | .u8 =>
      let c := eqN 1 a (maxU 1 a b)
      some (Intrin.xor c (eqN 1 a a))
    | .u16 =>
      let c := eqN 2 a (maxU 2 a b)
      some (Intrin.xor c (eqN 2 a a))
    | .u32 =>
      let c := eqN 4 a (maxU 4 a b)
      some (Intrin.xor c (eqN 4 a a))
    | .u64 => none
  else none) <|> vop2 (lt128 s t) a b

/-- `add_sat::<S, T, V128>` (unified.rs:506-563). 8- and 16-bit types; NEON also has the 32-bit ones. -/
def add_sat128 (s : Isa) (t : Elem) (a b : V128) : Option V128 :=
  (if s.is SSE2 then
    match t with
    | .i8 => some (addsS 1 a b)
    | .i16 => some (addsS 2 a b)
    | .u8 => some (addsU 1 a b)
    | .u16 => some (addsU 2 a b)
    | _ => none
  else none) <|>
  (if s.is NEON then
    match t with
    | .i8 => some (addsS 1 a b)
    | .i16 => some (addsS 2 a b)
    | .i32 => some (addsS 4 a b)
    | .u8 => some (addsU 1 a b)
    | .u16 => some (addsU 2 a b)
    | .u32 => some (addsU 4 a b)
    | _ => none
  else none) <|>
  (if s.is WASM128 then
    match t with
    | .i8 => some (addsS 1 a b)
    | .i16 => some (addsS 2 a b)
    | .u8 => some (addsU 1 a b)
    | .u16 => some (addsU 2 a b)
    | _ => none
  else none)
/-- `add_sat::<S, T, V256>` (unified.rs:482-505). -/
def add_sat256 (s : Isa) (t : Elem) (a b : V256) : Option V256 :=
  (if s.is AVX2 then
    match t with
    | .i8 => some (addsS 1 a b)
    | .i16 => some (addsS 2 a b)
    | .u8 => some (addsU 1 a b)
    | .u16 => some (addsU 2 a b)
    | _ => none
  else none) <|> vop2 (add_sat128 s t) a b

/-- `sub_sat::<S, T, V128>` (unified.rs:591-648). 8- and 16-bit types; NEON also has the 32-bit ones. -/
def sub_sat128 (s : Isa) (t : Elem) (a b : V128) : Option V128 :=
  (if s.is SSE2 then
    match t with
    | .i8 => some (subsS 1 a b)
    | .i16 => some (subsS 2 a b)
    | .u8 => some (subsU 1 a b)
    | .u16 => some (subsU 2 a b)
    | _ => none
  else none) <|>
  (if s.is NEON then
    match t with
    | .i8 => some (subsS 1 a b)
    | .i16 => some (subsS 2 a b)
    | .i32 => some (subsS 4 a b)
    | .u8 => some (subsU 1 a b)
    | .u16 => some (subsU 2 a b)
    | .u32 => some (subsU 4 a b)
    | _ => none
  else none) <|>
  (if s.is WASM128 then
    match t with
    | .i8 => some (subsS 1 a b)
    | .i16 => some (subsS 2 a b)
    | .u8 => some (subsU 1 a b)
    | .u16 => some (subsU 2 a b)
    | _ => none
  else none)
/-- `sub_sat::<S, T, V256>` (unified.rs:567-590). -/
def sub_sat256 (s : Isa) (t : Elem) (a b : V256) : Option V256 :=
  (if s.is AVX2 then
    match t with
    | .i8 => some (subsS 1 a b)
    | .i16 => some (subsS 2 a b)
    | .u8 => some (subsU 1 a b)
    | .u16 => some (subsU 2 a b)
    | _ => none
  else none) <|> vop2 (sub_sat128 s t) a b

/-- `max::<S, T, V128>` (unified.rs:687-777). SSE2 alone has only `i16` and `u8`; no 64-bit branches. -/
def max128 (s : Isa) (t : Elem) (a b : V128) : Option V128 :=
  (if s.is SSE41 then
    match t with
    | .i8 => some (maxS 1 a b)
    | .i32 => some (maxS 4 a b)
    | .u16 => some (maxU 2 a b)
    | .u32 => some (maxU 4 a b)
    | _ => none
  else none) <|>
  (if s.is SSE2 then
    match t with
    | .i16 => some (maxS 2 a b)
    | .u8 => some (maxU 1 a b)
    | _ => none
  else none) <|>
  (if s.is NEON then
    match t with
    | .i8 => some (maxS 1 a b)
    | .i16 => some (maxS 2 a b)
    | .i32 => some (maxS 4 a b)
    | .u8 => some (maxU 1 a b)
    | .u16 => some (maxU 2 a b)
    | .u32 => some (maxU 4 a b)
    | _ => none
  else none) <|>
  (if s.is WASM128 then
    match t with
    | .i8 => some (maxS 1 a b)
    | .i16 => some (maxS 2 a b)
    | .i32 => some (maxS 4 a b)
    | .u8 => some (maxU 1 a b)
    | .u16 => some (maxU 2 a b)
    | .u32 => some (maxU 4 a b)
    | _ => none
  else none)
/-- `max::<S, T, V256>` (unified.rs:651-686). -/
def max256 (s : Isa) (t : Elem) (a b : V256) : Option V256 :=
  (if s.is AVX2 then
    match t with
    | .i8 => some (maxS 1 a b)
    | .i16 => some (maxS 2 a b)
    | .i32 => some (maxS 4 a b)
    | .u8 => some (maxU 1 a b)
    | .u16 => some (maxU 2 a b)
    | .u32 => some (maxU 4 a b)
    | _ => none
  else none) <|> vop2 (max128 s t) a b

/-- `min::<S, T, V128>` (unified.rs:817-908). SSE2 alone has only `i16` and `u8`; no 64-bit branches. -/
def min128 (s : Isa) (t : Elem) (a b : V128) : Option V128 :=
  (if s.is SSE41 then
    match t with
    | .i8 => some (minS 1 a b)
    | .i32 => some (minS 4 a b)
    | .u16 => some (minU 2 a b)
    | .u32 => some (minU 4 a b)
    | _ => none
  else none) <|>
  (if s.is SSE2 then
    match t with
    | .i16 => some (minS 2 a b)
    | .u8 => some (minU 1 a b)
    | _ => none
  else none) <|>
  (if s.is NEON then
    match t with
    | .i8 => some (minS 1 a b)
    | .i16 => some (minS 2 a b)
    | .i32 => some (minS 4 a b)
    | .u8 => some (minU 1 a b)
    | .u16 => some (minU 2 a b)
    | .u32 => some (minU 4 a b)
    | _ => none
  else none) <|>
  (if s.is WASM128 then
    match t with
    | .i8 => some (minS 1 a b)
    | .i16 => some (minS 2 a b)
    | .i32 => some (minS 4 a b)
    | .u8 => some (minU 1 a b)
    | .u16 => some (minU 2 a b)
    | .u32 => some (minU 4 a b)
    | _ => none
  else none)
/-- `min::<S, T, V256>` (unified.rs:781-816). -/
def min256 (s : Isa) (t : Elem) (a b : V256) : Option V256 :=
  (if s.is AVX2 then
    match t with
    | .i8 => some (minS 1 a b)
    | .i16 => some (minS 2 a b)
    | .i32 => some (minS 4 a b)
    | .u8 => some (minU 1 a b)
    | .u16 => some (minU 2 a b)
    | .u32 => some (minU 4 a b)
    | _ => none
  else none) <|> vop2 (min128 s t) a b

/-! ### The remaining methods of `SIMD128` (simd128.rs) -/

/-- `i8x16_splat` (simd128.rs:255). -/
def i8x16_splat (s : Isa) (x : BitVec (8 * (Elem.i8).bytes)) : Option V128 := splat128 s .i8 x
/-- `i16x8_splat` (simd128.rs:261). -/
def i16x8_splat (s : Isa) (x : BitVec (8 * (Elem.i16).bytes)) : Option V128 := splat128 s .i16 x
/-- `i32x4_splat` (simd128.rs:267). -/
def i32x4_splat (s : Isa) (x : BitVec (8 * (Elem.i32).bytes)) : Option V128 := splat128 s .i32 x
/-- `i64x2_splat` (simd128.rs:273). -/
def i64x2_splat (s : Isa) (x : BitVec (8 * (Elem.i64).bytes)) : Option V128 := splat128 s .i64 x
/-- `u16x8_add` (simd128.rs:285). -/
def u16x8_add (s : Isa) (a b : V128) : Option V128 := add128 s .u16 a b
/-- `u32x4_add` (simd128.rs:291). -/
def u32x4_add (s : Isa) (a b : V128) : Option V128 := add128 s .u32 a b
/-- `u64x2_add` (simd128.rs:297). -/
def u64x2_add (s : Isa) (a b : V128) : Option V128 := add128 s .u64 a b
/-- `u16x8_sub` (simd128.rs:309). -/
def u16x8_sub (s : Isa) (a b : V128) : Option V128 := sub128 s .u16 a b
/-- `u64x2_sub` (simd128.rs:321). -/
def u64x2_sub (s : Isa) (a b : V128) : Option V128 := sub128 s .u64 a b
/-- `u16x8_sub_sat` (simd128.rs:333). -/
def u16x8_sub_sat (s : Isa) (a b : V128) : Option V128 := sub_sat128 s .u16 a b
/-- `i8x16_sub_sat` (simd128.rs:339). -/
def i8x16_sub_sat (s : Isa) (a b : V128) : Option V128 := sub_sat128 s .i8 a b
/-- `i16x8_sub_sat` (simd128.rs:345). -/
def i16x8_sub_sat (s : Isa) (a b : V128) : Option V128 := sub_sat128 s .i16 a b
/-- `u16x8_eq` (simd128.rs:489). -/
def u16x8_eq (s : Isa) (a b : V128) : Option V128 := eq128 s .u16 a b
/-- `u32x4_eq` (simd128.rs:495). -/
def u32x4_eq (s : Isa) (a b : V128) : Option V128 := eq128 s .u32 a b
/-- `u16x8_lt` (simd128.rs:511). -/
def u16x8_lt (s : Isa) (a b : V128) : Option V128 := lt128 s .u16 a b
/-- `i16x8_lt` (simd128.rs:531). -/
def i16x8_lt (s : Isa) (a b : V128) : Option V128 := lt128 s .i16 a b
/-- `i32x4_lt` (simd128.rs:537). -/
def i32x4_lt (s : Isa) (a b : V128) : Option V128 := lt128 s .i32 a b
/-- `u16x8_max` (simd128.rs:549). -/
def u16x8_max (s : Isa) (a b : V128) : Option V128 := max128 s .u16 a b
/-- `i8x16_max` (simd128.rs:561). -/
def i8x16_max (s : Isa) (a b : V128) : Option V128 := max128 s .i8 a b
/-- `i16x8_max` (simd128.rs:567). -/
def i16x8_max (s : Isa) (a b : V128) : Option V128 := max128 s .i16 a b
/-- `i32x4_max` (simd128.rs:573). -/
def i32x4_max (s : Isa) (a b : V128) : Option V128 := max128 s .i32 a b
/-- `u16x8_min` (simd128.rs:585). -/
def u16x8_min (s : Isa) (a b : V128) : Option V128 := min128 s .u16 a b
/-- `u32x4_min` (simd128.rs:591). -/
def u32x4_min (s : Isa) (a b : V128) : Option V128 := min128 s .u32 a b
/-- `i8x16_min` (simd128.rs:597). -/
def i8x16_min (s : Isa) (a b : V128) : Option V128 := min128 s .i8 a b
/-- `i16x8_min` (simd128.rs:603). -/
def i16x8_min (s : Isa) (a b : V128) : Option V128 := min128 s .i16 a b
/-- `i32x4_min` (simd128.rs:609). -/
def i32x4_min (s : Isa) (a b : V128) : Option V128 := min128 s .i32 a b

/-- `i32x4_mul_lo` (simd128.rs:372-389): needs SSE4.1 on x86. -/
def i32x4_mul_lo (s : Isa) (a b : V128) : Option V128 :=
  if s.is SSE41 then some (mullo32 a b)
  else if s.is NEON then some (mullo32 a b)
  else if s.is WASM128 then some (mullo32 a b)
  else none
/-- `i16x8_mul_hi` (simd128.rs:1101-1113): SSE2 only. -/
def i16x8_mul_hi (s : Isa) (a b : V128) : Option V128 := if s.is SSE2 then some (mulhi_i16 a b) else none

/-- `u16x8_zip_lo` (simd128.rs:871-894). -/
def u16x8_zip_lo (s : Isa) (a b : V128) : Option V128 :=
  if s.is SSE2 then some (unpackloN 2 a b)
  else if s.is NEON then some (unpackloN 2 a b)
  else if s.is WASM128 then some (wasm_shuffle 2 [0, 8, 1, 9, 2, 10, 3, 11] a b)
  else none
/-- `u16x8_zip_hi` (simd128.rs:898-921). -/
def u16x8_zip_hi (s : Isa) (a b : V128) : Option V128 :=
  if s.is SSE2 then some (unpackhiN 2 a b)
  else if s.is NEON then some (unpackhiN 2 a b)
  else if s.is WASM128 then some (wasm_shuffle 2 [4, 12, 5, 13, 6, 14, 7, 15] a b)
  else none
/-- `u32x4_zip_lo` (simd128.rs:925-948). -/
def u32x4_zip_lo (s : Isa) (a b : V128) : Option V128 :=
  if s.is SSE2 then some (unpackloN 4 a b)
  else if s.is NEON then some (unpackloN 4 a b)
  else if s.is WASM128 then some (wasm_shuffle 4 [0, 4, 1, 5] a b)
  else none
/-- `u32x4_zip_hi` (simd128.rs:952-975). -/
def u32x4_zip_hi (s : Isa) (a b : V128) : Option V128 :=
  if s.is SSE2 then some (unpackhiN 4 a b)
  else if s.is NEON then some (unpackhiN 4 a b)
  else if s.is WASM128 then some (wasm_shuffle 4 [2, 6, 3, 7] a b)
  else none
/-- `u64x2_zip_hi` (simd128.rs:1005-1027). -/
def u64x2_zip_hi (s : Isa) (a b : V128) : Option V128 :=
  if s.is SSE2 then some (unpackhiN 8 a b)
  else if s.is NEON then some (pair64 1 a b)
  else if s.is WASM128 then some (wasm_shuffle 8 [1, 3] a b)
  else none
/-- The WASM128 branches of `u8x16_zip_lo`, `u8x16_zip_hi`, `u64x2_zip_lo` and `u8x16_unzip_even` (simd128.rs:831-835,
858-862, 992-996, 1045-1049) with the constants of the source; `Verif.Model.Simd` gives all three branches of these methods
the same lane function, which the branches below are proved to compute. -/
def zip_lo8_wasm (a b : V128) : V128 := wasm_shuffle 1 [0, 16, 1, 17, 2, 18, 3, 19, 4, 20, 5, 21, 6, 22, 7, 23] a b
/-- simd128.rs:858-862. -/
def zip_hi8_wasm (a b : V128) : V128 := wasm_shuffle 1 [8, 24, 9, 25, 10, 26, 11, 27, 12, 28, 13, 29, 14, 30, 15, 31] a b
/-- simd128.rs:992-996. -/
def zip_lo64_wasm (a b : V128) : V128 := wasm_shuffle 8 [0, 2] a b
/-- simd128.rs:985-989 (NEON). -/
def zip_lo64_neon (a b : V128) : V128 := pair64 0 a b
/-- simd128.rs:1045-1049. -/
def unzip_even_wasm (a b : V128) : V128 := wasm_shuffle 1 [0, 2, 4, 6, 8, 10, 12, 14, 16, 18, 20, 22, 24, 26, 28, 30] a b
/-- `u8x16_unzip_odd` (simd128.rs:1058-1081): SSE2 is `unimplemented!()`. -/
def u8x16_unzip_odd (s : Isa) (a b : V128) : Option V128 :=
  if s.is SSE2 then none
  else if s.is NEON then some (uzp2_128 a b)
  else if s.is WASM128 then some (wasm_shuffle 1 [1, 3, 5, 7, 9, 11, 13, 15, 17, 19, 21, 23, 25, 27, 29, 31] a b)
  else none

/-! ### The remaining methods of `SIMD256` (simd256.rs) -/

/-- `v256_not` (simd256.rs:142-149). -/
def v256_not (s : Isa) (a : V256) : Option V256 :=
  if s.is AVX2 then do v256_xor s a (← u8x32_eq s a a)
  else vop1 (v128_not s) a

/-- `i8x32_splat` (simd256.rs:213). -/
def i8x32_splat (s : Isa) (x : BitVec (8 * (Elem.i8).bytes)) : Option V256 := splat256 s .i8 x
/-- `i16x16_splat` (simd256.rs:218). -/
def i16x16_splat (s : Isa) (x : BitVec (8 * (Elem.i16).bytes)) : Option V256 := splat256 s .i16 x
/-- `i32x8_splat` (simd256.rs:223). -/
def i32x8_splat (s : Isa) (x : BitVec (8 * (Elem.i32).bytes)) : Option V256 := splat256 s .i32 x
/-- `i64x4_splat` (simd256.rs:228). -/
def i64x4_splat (s : Isa) (x : BitVec (8 * (Elem.i64).bytes)) : Option V256 := splat256 s .i64 x
/-- `u16x16_add` (simd256.rs:238). -/
def u16x16_add (s : Isa) (a b : V256) : Option V256 := add256 s .u16 a b
/-- `u32x8_add` (simd256.rs:243). -/
def u32x8_add (s : Isa) (a b : V256) : Option V256 := add256 s .u32 a b
/-- `u64x4_add` (simd256.rs:248). -/
def u64x4_add (s : Isa) (a b : V256) : Option V256 := add256 s .u64 a b
/-- `u16x16_sub` (simd256.rs:258). -/
def u16x16_sub (s : Isa) (a b : V256) : Option V256 := sub256 s .u16 a b
/-- `u64x4_sub` (simd256.rs:268). -/
def u64x4_sub (s : Isa) (a b : V256) : Option V256 := sub256 s .u64 a b
/-- `u16x16_sub_sat` (simd256.rs:278). -/
def u16x16_sub_sat (s : Isa) (a b : V256) : Option V256 := sub_sat256 s .u16 a b
/-- `i8x32_sub_sat` (simd256.rs:283). -/
def i8x32_sub_sat (s : Isa) (a b : V256) : Option V256 := sub_sat256 s .i8 a b
/-- `i16x16_sub_sat` (simd256.rs:288). -/
def i16x16_sub_sat (s : Isa) (a b : V256) : Option V256 := sub_sat256 s .i16 a b
/-- `u8x32_add_sat` (simd256.rs:898). -/
def u8x32_add_sat (s : Isa) (a b : V256) : Option V256 := add_sat256 s .u8 a b
/-- `u16x16_eq` (simd256.rs:364). -/
def u16x16_eq (s : Isa) (a b : V256) : Option V256 := eq256 s .u16 a b
/-- `u32x8_eq` (simd256.rs:369). -/
def u32x8_eq (s : Isa) (a b : V256) : Option V256 := eq256 s .u32 a b
/-- `u16x16_lt` (simd256.rs:379). -/
def u16x16_lt (s : Isa) (a b : V256) : Option V256 := lt256 s .u16 a b
/-- `i16x16_lt` (simd256.rs:394). -/
def i16x16_lt (s : Isa) (a b : V256) : Option V256 := lt256 s .i16 a b
/-- `i32x8_lt` (simd256.rs:399). -/
def i32x8_lt (s : Isa) (a b : V256) : Option V256 := lt256 s .i32 a b
/-- `u8x32_max` (simd256.rs:404). -/
def u8x32_max (s : Isa) (a b : V256) : Option V256 := max256 s .u8 a b
/-- `u16x16_max` (simd256.rs:409). -/
def u16x16_max (s : Isa) (a b : V256) : Option V256 := max256 s .u16 a b
/-- `i8x32_max` (simd256.rs:419). -/
def i8x32_max (s : Isa) (a b : V256) : Option V256 := max256 s .i8 a b
/-- `i16x16_max` (simd256.rs:424). -/
def i16x16_max (s : Isa) (a b : V256) : Option V256 := max256 s .i16 a b
/-- `i32x8_max` (simd256.rs:429). -/
def i32x8_max (s : Isa) (a b : V256) : Option V256 := max256 s .i32 a b
/-- `u8x32_min` (simd256.rs:434). -/
def u8x32_min (s : Isa) (a b : V256) : Option V256 := min256 s .u8 a b
/-- `u16x16_min` (simd256.rs:439). -/
def u16x16_min (s : Isa) (a b : V256) : Option V256 := min256 s .u16 a b
/-- `u32x8_min` (simd256.rs:444). -/
def u32x8_min (s : Isa) (a b : V256) : Option V256 := min256 s .u32 a b
/-- `i8x32_min` (simd256.rs:449). -/
def i8x32_min (s : Isa) (a b : V256) : Option V256 := min256 s .i8 a b
/-- `i16x16_min` (simd256.rs:454). -/
def i16x16_min (s : Isa) (a b : V256) : Option V256 := min256 s .i16 a b
/-- `i32x8_min` (simd256.rs:459). -/
def i32x8_min (s : Isa) (a b : V256) : Option V256 := min256 s .i32 a b

/-- `i32x8_mul_lo` (simd256.rs:304-312). -/
def i32x8_mul_lo (s : Isa) (a b : V256) : Option V256 := if s.is AVX2 then some (mullo32 a b) else vop2 (i32x4_mul_lo s) a b
/-- `i16x16_mul_hi` (simd256.rs:819-827). -/
def i16x16_mul_hi (s : Isa) (a b : V256) : Option V256 := if s.is AVX2 then some (mulhi_i16 a b) else vop2 (i16x8_mul_hi s) a b
/-- `u16x8x2_zip_lo` (simd256.rs:640-648). -/
def u16x8x2_zip_lo (s : Isa) (a b : V256) : Option V256 := if s.is AVX2 then some (unpackloN 2 a b) else vop2 (u16x8_zip_lo s) a b
/-- `u16x8x2_zip_hi` (simd256.rs:651-659). -/
def u16x8x2_zip_hi (s : Isa) (a b : V256) : Option V256 := if s.is AVX2 then some (unpackhiN 2 a b) else vop2 (u16x8_zip_hi s) a b
/-- `u32x4x2_zip_lo` (simd256.rs:662-670). -/
def u32x4x2_zip_lo (s : Isa) (a b : V256) : Option V256 := if s.is AVX2 then some (unpackloN 4 a b) else vop2 (u32x4_zip_lo s) a b
/-- `u32x4x2_zip_hi` (simd256.rs:673-681). -/
def u32x4x2_zip_hi (s : Isa) (a b : V256) : Option V256 := if s.is AVX2 then some (unpackhiN 4 a b) else vop2 (u32x4_zip_hi s) a b
/-- `u64x2x2_zip_hi` (simd256.rs:695-703). -/
def u64x2x2_zip_hi (s : Isa) (a b : V256) : Option V256 := if s.is AVX2 then some (unpackhiN 8 a b) else vop2 (u64x2_zip_hi s) a b
/-- `u8x32_unzip_odd` (simd256.rs:765-775). -/
def u8x32_unzip_odd (s : Isa) (a b : V256) : Option V256 :=
  if s.is SSE2 then none
  else do
    let ab ← u8x16_unzip_odd s a.lo a.hi
    let cd ← u8x16_unzip_odd s b.lo b.hi
    return join ab cd
/-- `u64x4_unzip_odd` (simd256.rs:793-805). -/
def u64x4_unzip_odd (s : Isa) (a b : V256) : Option V256 :=
  if s.is AVX2 then do
    let acbd ← u64x2x2_zip_hi s a b
    u64x4_permute s 0b11011000 acbd
  else do
    let ab ← u64x2_zip_hi s a.lo a.hi
    let cd ← u64x2_zip_hi s b.lo b.hi
    return join ab cd
/-- `u8x32_any_zero` (simd256.rs:530-539). -/
def u8x32_any_zero (s : Isa) (a : V256) : Option Bool :=
  if s.is AVX2 then do
    let is_zero ← u8x32_eq s a (← v256_create_zero s)
    return (← u8x32_bitmask s is_zero) != 0
  else do u8x16_any_zero s (← u8x16_min s a.lo a.hi)
/-- `u8x32_reduce_max` (simd256.rs:556-559). -/
def u8x32_reduce_max (s : Isa) (a : V256) : Option Byte := do u8x16_reduce_max s (← u8x16_max s a.lo a.hi)
/-- `u8x32_reduce_min` (simd256.rs:562-565). -/
def u8x32_reduce_min (s : Isa) (a : V256) : Option Byte := do u8x16_reduce_min s (← u8x16_min s a.lo a.hi)

/-! ### mask.rs -/

/-- `u8x16_highbit_all` (mask.rs:61-74). -/
def u8x16_highbit_all (s : Isa) (x : V128) : Option Bool :=
  if s.is SSE2 || s.is WASM128 then do return (← u8x16_bitmask s x) == 0xffff
  else if s.is NEON then
    if s.arm then do mask8x16_all s (← i8x16_lt s x (← v128_create_zero s))
    else if s.aarch64 then do return (0x80#8).ule (← u8x16_reduce_min s x)
    else none
  else none
/-- `u8x32_highbit_all` (mask.rs:77-87). -/
def u8x32_highbit_all (s : Isa) (x : V256) : Option Bool :=
  if s.is AVX2 then do return (← u8x32_bitmask s x) == 0xffffffff
  else if s.is SSE2 || s.is WASM128 || s.is NEON then do u8x16_highbit_all s (← v128_and s x.lo x.hi)
  else none

/-! ### simulation.rs: what replaces the intrinsics under Miri -/

namespace Sim
/-- `simulation::u8x16_max` (simulation.rs:12-19); the loop over an array is a list map. -/
def u8x16_max (a b : List Byte) : List Byte := (List.range 16).map fun i => if (a.getD i 0).ult (b.getD i 0) then b.getD i 0 else a.getD i 0
/-- `simulation::u8x16_min` (simulation.rs:23-30). -/
def u8x16_min (a b : List Byte) : List Byte := (List.range 16).map fun i => if (b.getD i 0).ult (a.getD i 0) then b.getD i 0 else a.getD i 0
/-- The loop of `simulation::u8x16_bitmask` (simulation.rs:41-44), `m |= ((a[i] >> 7) as u16) << i`. -/
def bitmaskLoop (a : List Byte) : Nat → BitVec 16
  | 0 => 0
  | i + 1 => bitmaskLoop a i ||| ((a.getD i 0 >>> 7).setWidth 16 <<< i)
/-- `simulation::u8x16_bitmask` (simulation.rs:35-46). -/
def u8x16_bitmask (a : List Byte) : BitVec 16 := bitmaskLoop a 16
/-- `transmute::<V128, [u16; 8]>` on the little-endian targets. -/
def u16s (a : List Byte) : List (BitVec 16) := (List.range 8).map fun j => a.getD (2 * j + 1) 0 ++ a.getD (2 * j) 0
/-- `transmute::<[u16; 8], V128>`. -/
def bytes16 (xs : List (BitVec 16)) : List Byte := xs.flatMap fun x => [byteOf x 0, byteOf x 1]
/-- `simulation::u16x8_shr` (simulation.rs:51-57); `none` is the overflow panic of `>>=` for `imm8 ≥ 16` (debug builds;
Miri runs with overflow checks). -/
def u16x8_shr (a : List Byte) (imm8 : Nat) : Option (List Byte) :=
  if imm8 < 16 then some (bytes16 ((u16s a).map fun x : BitVec 16 => x >>> imm8)) else none
/-- `simulation::u16x8_shl` (simulation.rs:62-68). -/
def u16x8_shl (a : List Byte) (imm8 : Nat) : Option (List Byte) :=
  if imm8 < 16 then some (bytes16 ((u16s a).map fun x : BitVec 16 => x <<< imm8)) else none
/-- `sat_u8` (simulation.rs:75-83). -/
def sat_u8 (x : BitVec 16) : Byte := if x.slt 0 then 0 else if (255#16).slt x then 255 else x.setWidth 8
/-- `simulation::i16x8_packus` (simulation.rs:72-90). -/
def i16x8_packus (a b : List Byte) : List Byte := (u16s a).map sat_u8 ++ (u16s b).map sat_u8
end Sim

end Vs
end Simd
