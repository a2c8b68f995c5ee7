import Verif.Model.Hex
import Verif.Model.Heap
/-
crates/hex-simd/src/heap.rs and the owning functions of crates/hex-simd/src/lib.rs.
`Box<[u8]>`, `Box<str>` are slices covering their allocation; `Vec<u8>`, `String` are `RVec`.
-/
namespace Simd.Hex
open Vs

/-- `decode_to_boxed_bytes` (heap.rs:13-31). -/
def decode_to_boxed_bytes (P : Plat) (i : Option Isa) (src : Slice) : Prog Slice :=
  if src.len = 0 then box_empty
  else do
    ensure (src.len % 2 == 0)
    let buf ← alloc_uninit_bytes P (src.len / 2)
    decode_auto i src.ptr src.len buf.ptr
    assume_init buf

/-- `decode_append_vec` (heap.rs:34-53); returns the updated vector together with the result. -/
def decode_append_vec (P : Plat) (extra : Nat) (i : Option Isa) (src : Slice) (buf : RVec) : Prog (RVec × Except Unit Unit) :=
  if src.len = 0 then pure (buf, .ok ())
  else if src.len % 2 = 0 then do
    let m := src.len / 2
    let buf ← buf.reserve_exact P extra m
    let prev_len := buf.len
    padd ⟨buf.buf, 0⟩ prev_len
    match ← (decode_auto i src.ptr src.len ⟨buf.buf, prev_len⟩).attempt with
    | none => pure (buf, .error ())
    | some _ =>
      let buf ← buf.set_len (← liftO (P.addU prev_len m))
      pure (buf, .ok ())
  else pure (buf, .error ())

/-- `encode_to_boxed_str` (heap.rs:56-75). -/
def encode_to_boxed_str (P : Plat) (i : Option Isa) (src : Slice) (case : AsciiCase) : Prog Slice :=
  if src.len = 0 then box_empty
  else do
    let m ← liftO (P.mulU src.len 2)
    assert (m ≤ P.usizeMax / 2)
    let buf ← alloc_uninit_bytes P m
    encode_auto i src.ptr src.len buf.ptr case
    assume_init buf

/-- `encode_append_vec` (heap.rs:78-96). -/
def encode_append_vec (P : Plat) (extra : Nat) (i : Option Isa) (src : Slice) (buf : RVec) (case : AsciiCase) : Prog RVec :=
  if src.len = 0 then pure buf
  else do
    let m ← liftO (P.mulU src.len 2)
    assert (m ≤ P.usizeMax / 2)
    let buf ← buf.reserve_exact P extra m
    let prev_len := buf.len
    padd ⟨buf.buf, 0⟩ prev_len
    encode_auto i src.ptr src.len ⟨buf.buf, prev_len⟩ case
    buf.set_len (← liftO (P.addU prev_len m))

/-- `encode_to_string` (lib.rs:281-283) = `encode_type::<String>` (lib.rs:233-235, heap.rs:142-148). -/
def encode_to_string (P : Plat) (i : Option Isa) (src : Slice) (case : AsciiCase) : Prog RVec := do
  return .ofBox (← encode_to_boxed_str P i src case)

/-- `decode_to_vec` (lib.rs:292-294) = `decode_type::<Vec<u8>>` (lib.rs:242-244, heap.rs:107-113). -/
def decode_to_vec (P : Plat) (i : Option Isa) (src : Slice) : Prog RVec := do
  return .ofBox (← decode_to_boxed_bytes P i src)

/-- `encode_append::<Vec<u8>>`, `::<String>` (lib.rs:263-265, heap.rs:151-165). -/
def encode_append (P : Plat) (extra : Nat) (i : Option Isa) (src : Slice) (dst : RVec) (case : AsciiCase) : Prog RVec :=
  encode_append_vec P extra i src dst case

/-- `decode_append::<Vec<u8>>` (lib.rs:272-274, heap.rs:167-172). -/
def decode_append (P : Plat) (extra : Nat) (i : Option Isa) (src : Slice) (dst : RVec) : Prog (RVec × Except Unit Unit) :=
  decode_append_vec P extra i src dst

end Simd.Hex
