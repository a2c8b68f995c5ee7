import Verif.Model.Alsw
/-
The scalar functions of crates/vsimd/src/alsw.rs that the tests of the crates compare the tables with, and the checked arithmetic of the
compile-time evaluation of the tables.
-/
namespace Simd.Vs

/-- `alsw::check` (alsw.rs:36-40). -/
def alsw_check (hash_lut offset : List Byte) (c : Byte) : Byte :=
  let h := hash hash_lut c
  let o := lookup offset h
  Intrin.satI8 (c.toInt + o.toInt)

/-- `alsw::decode` (alsw.rs:44-48). -/
def alsw_decode (hash_lut offset : List Byte) (c : Byte) : Byte :=
  let h := hash hash_lut c
  let o := lookup offset h
  c + o

/-- `(x << 1) - 1` in a constant (alsw.rs:137, 164): the subtraction must not underflow, or the crate does not compile. -/
def hash_entry (x : Byte) : Option Byte := if x <<< 1 = 0 then none else some ((x <<< 1) - 1)

namespace AlswSpec
variable (A : AlswSpec)
/-- The evaluation of `CHECK_HASH` (alsw.rs:132-141). -/
def CHECK_HASH_eval : Option (List Byte) := (List.range 16).mapM fun i => hash_entry (A.check_hash i)
/-- The evaluation of `DECODE_HASH` (alsw.rs:159-168). -/
def DECODE_HASH_eval : Option (List Byte) := (List.range 16).mapM fun i => hash_entry (A.decode_hash i)
/-- `test_check` (alsw.rs:206-215): all assertions hold. -/
def test_check : Bool := (List.range 256).all fun i =>
  let c := BitVec.ofNat 8 i
  decide ((alsw_check A.CHECK_HASH A.CHECK_OFFSET c).toNat < 0x80) == (A.decode c != 0xff)
/-- `test_decode` (alsw.rs:218-230): all assertions hold. -/
def test_decode : Bool := (List.range 256).all fun i =>
  let c := BitVec.ofNat 8 i
  A.decode c == 0xff || alsw_decode A.DECODE_HASH A.DECODE_OFFSET c == A.decode c
end AlswSpec
end Simd.Vs
