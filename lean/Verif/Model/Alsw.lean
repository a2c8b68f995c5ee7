import Verif.Model.Simd
/-
ALSW classifier (crates/vsimd/src/alsw.rs) and the five lookup-table specifications that instantiate it.
-/
namespace Simd
namespace Vs


/-- A program fragment that may panic (`none`) or return `Err(())` (`some (.error ())`). -/
abbrev Res (α : Type) := Option (Except Unit α)

end Vs

/-- Use of a `Result` with `?` / `try_!` / `ensure!`. -/
def liftR {α : Type} : Vs.Res α → Prog α
  | some (.ok a) => pure a
  | some (.error _) => .err
  | none => .panic

namespace Vs
open IsaId

/-- `lookup` (alsw.rs:14-20). -/
def lookup (lut : List Byte) (x : Byte) : Byte :=
  if x.toNat < 0x80 then lut.getD (x &&& 0x0f).toNat 0 else 0

/-- `avgr` (alsw.rs:24-26). -/
def avgr (a b : Byte) : Byte := BitVec.ofNat 8 ((a.toNat + b.toNat + 1) >>> 1)

/-- `hash` (alsw.rs:30-32). -/
def hash (hashLut : List Byte) (c : Byte) : Byte := avgr (0xE0 ||| (c >>> 3)) (lookup hashLut c)

/-- The three const functions given to `impl_alsw!` (alsw.rs:129-232). -/
structure AlswSpec where
  decode : Byte → Byte
  check_hash : Nat → Byte
  decode_hash : Nat → Byte

namespace AlswSpec
variable (A : AlswSpec)

/-- `CHECK_HASH` (alsw.rs:132-141). -/
def CHECK_HASH : List Byte := (List.range 16).map fun i => (A.check_hash i <<< 1) - 1
/-- `CHECK_OFFSET` (alsw.rs:143-157): the loop runs `c` from 255 down to 0. -/
def CHECK_OFFSET : List Byte :=
  (List.range 256).foldr (fun i arr =>
    let c := BitVec.ofNat 8 i
    if A.decode c ≠ 0xff then arr.set (hash A.CHECK_HASH c &&& 0x0f).toNat (0 - c) else arr)
    (List.replicate 16 0x80)
/-- `DECODE_HASH` (alsw.rs:159-168). -/
def DECODE_HASH : List Byte := (List.range 16).map fun i => (A.decode_hash i <<< 1) - 1
/-- `DECODE_OFFSET` (alsw.rs:170-185). -/
def DECODE_OFFSET : List Byte :=
  (List.range 256).foldr (fun i arr =>
    let c := BitVec.ofNat 8 i
    if A.decode c ≠ 0xff then arr.set (hash A.DECODE_HASH c &&& 0x0f).toNat (A.decode c - c) else arr)
    (List.replicate 16 0x80)

end AlswSpec

/-- `AlswLut<V>` (alsw.rs:51-54). -/
structure AlswLut (n : Nat) where
  hash : Vec n
  offset : Vec n

/-- `AlswLut::x2` (alsw.rs:59-64). -/
def AlswLut.x2 (l : AlswLut 16) : AlswLut 32 := ⟨l.hash.x2, l.offset.x2⟩

/-- `check_lut()` (alsw.rs:189-194). -/
def AlswSpec.check_lut (A : AlswSpec) : AlswLut 16 := ⟨.ofList A.CHECK_HASH, .ofList A.CHECK_OFFSET⟩
/-- `decode_lut()` (alsw.rs:198-203). -/
def AlswSpec.decode_lut (A : AlswSpec) : AlswLut 16 := ⟨.ofList A.DECODE_HASH, .ofList A.DECODE_OFFSET⟩

/-- `check_ascii_xn` (alsw.rs:68-74). -/
def check_ascii_xn {n : Nat} [Scalable n] (s : Isa) (x : Vec n) (check : AlswLut n) : Option Bool := do
  let shr3 ← Scalable.u32xn_shr s 3 x
  let h1 ← Scalable.u8xn_avgr s shr3 (← u8x16xn_lookup s check.hash x)
  let o1 ← u8x16xn_lookup s check.offset h1
  let c1 ← Scalable.i8xn_add_sat s x o1
  return !(← Scalable.u8xn_highbit_any s c1)

/-- `alsw::u8xn_avgr` (alsw.rs:95-126): on AVX2 with V256 an inline `vpavgb`, else `s.u8xn_avgr`;
both are the rounding average, and on AVX2 `s.u8xn_avgr` is the same instruction. -/
def alsw_avgr {n : Nat} [Scalable n] (s : Isa) (a b : Vec n) : Option (Vec n) :=
  if s.is AVX2 && n == 32 then some (Intrin.avg_u8 a b) else Scalable.u8xn_avgr s a b

/-- `decode_ascii_xn` (alsw.rs:77-90). -/
def decode_ascii_xn {n : Nat} [Scalable n] (s : Isa) (x : Vec n) (check decode : AlswLut n) :
    Option (Vec n × Vec n) := do
  let shr3 ← Scalable.u32xn_shr s 3 x
  let h1 ← alsw_avgr s shr3 (← u8x16xn_lookup s check.hash x)
  let h2 ← alsw_avgr s shr3 (← u8x16xn_lookup s decode.hash x)
  let o1 ← u8x16xn_lookup s check.offset h1
  let o2 ← u8x16xn_lookup s decode.offset h2
  let c1 ← Scalable.i8xn_add_sat s x o1
  let c2 ← Scalable.u8xn_add s x o2
  return (c1, c2)

/-- `parse_hex` (hex.rs:11-18). -/
def parse_hex (x : Byte) : Byte :=
  if 0x30 ≤ x.toNat ∧ x.toNat ≤ 0x39 then x - 0x30
  else if 0x61 ≤ x.toNat ∧ x.toNat ≤ 0x66 then x - 0x61 + 10
  else if 0x41 ≤ x.toNat ∧ x.toNat ≤ 0x46 then x - 0x41 + 10
  else 0xff

/-- `HexAlsw` (hex.rs:78-100). -/
def HexAlsw : AlswSpec where
  decode := parse_hex
  check_hash i := if i = 0 then 1 else if i ≤ 6 then 1 else if i ≤ 9 then 6 else 8
  decode_hash i := if i = 0 then 1 else if i ≤ 6 then 1 else if i ≤ 9 then 6 else 8

/-- `StandardAlsw` (crates/base64-simd/src/alsw.rs:4-42). -/
def StandardAlsw : AlswSpec where
  decode c :=
    if 0x41 ≤ c.toNat ∧ c.toNat ≤ 0x5A then c - 0x41
    else if 0x61 ≤ c.toNat ∧ c.toNat ≤ 0x7A then c - 0x61 + 26
    else if 0x30 ≤ c.toNat ∧ c.toNat ≤ 0x39 then c - 0x30 + 52
    else if c.toNat = 0x2B then 62
    else if c.toNat = 0x2F then 63
    else 0xff
  check_hash i :=
    if i = 0 then 5 else if i ≤ 9 then 2 else if i = 0xA then 4 else if i = 0xB then 6
    else if i ≤ 0xE then 8 else 6
  decode_hash i := if i = 0xB then 7 else if i = 0xF then 8 else 1

/-- `UrlSafeAlsw` (crates/base64-simd/src/alsw.rs:44-83). -/
def UrlSafeAlsw : AlswSpec where
  decode c :=
    if 0x41 ≤ c.toNat ∧ c.toNat ≤ 0x5A then c - 0x41
    else if 0x61 ≤ c.toNat ∧ c.toNat ≤ 0x7A then c - 0x61 + 26
    else if 0x30 ≤ c.toNat ∧ c.toNat ≤ 0x39 then c - 0x30 + 52
    else if c.toNat = 0x2D then 62
    else if c.toNat = 0x5F then 63
    else 0xff
  check_hash i :=
    if i = 0 then 7 else if i ≤ 9 then 2 else if i = 0xA then 4 else if i ≤ 0xC then 6
    else if i = 0xD then 8 else if i = 0xE then 6 else 6
  decode_hash i := if i = 0xD then 1 else if i = 0xF then 5 else 1

/-- `Base32Alsw` (crates/base32-simd/src/alsw.rs:4-34). -/
def Base32Alsw : AlswSpec where
  decode c :=
    if 0x41 ≤ c.toNat ∧ c.toNat ≤ 0x5A then c - 0x41
    else if 0x32 ≤ c.toNat ∧ c.toNat ≤ 0x37 then c - 0x32 + 26
    else 0xff
  check_hash i := if i = 0 then 1 else if i = 1 then 1 else if i ≤ 7 then 6 else if i ≤ 0xA then 1 else 7
  decode_hash i := if i = 0 then 1 else if i = 1 then 1 else if i ≤ 7 then 6 else if i ≤ 0xA then 1 else 7

/-- `Base32HexAlsw` (crates/base32-simd/src/alsw.rs:36-65). -/
def Base32HexAlsw : AlswSpec where
  decode c :=
    if 0x30 ≤ c.toNat ∧ c.toNat ≤ 0x39 then c - 0x30
    else if 0x41 ≤ c.toNat ∧ c.toNat ≤ 0x56 then c - 0x41 + 10
    else 0xff
  check_hash i := if i = 0 then 1 else if i ≤ 6 then 1 else if i ≤ 9 then 7 else 2
  decode_hash i := if i = 0 then 1 else if i ≤ 6 then 1 else if i ≤ 9 then 7 else 2

end Vs
end Simd
