import Verif.Model.BorrowHeap
import Verif.Model.TreeExt
/-
The functions of uuid-simd's `ext.rs` with the references they make, under the rules of Verif/Model/Borrows.lean (Stacked Borrows). What is simplified and left out is as in
Verif/Model/TreeExt.lean: a local variable is an allocation that is deallocated at the end of the scope.
-/
namespace Simd.Borrow.Uuid

/-- `parse_uuid` (crates/uuid-simd/src/ext.rs:50-58). `as_mut_ptr` and `assume_init` are those of `MaybeUninit<Uuid>`; `assume_init` takes the variable itself, not a reference to it. -/
def parse_uuid (src : Slice) (f : Slice → Ptr → BProg Slice) : BProg (List Byte) := call do
  let p ← arg .shared src.ptr src.len
  let uuid ← alloc 16
  let out ← as_mut_ptr uuid 16
  let _ ← orDrop (f ⟨p, src.len⟩ out) (dealloc uuid 16)
  let ans ← Borrow.prog (loadBytes uuid 16)
  dealloc uuid 16
  pure ans

/-- `UuidExt::parse` (ext.rs:62-64). -/
def ext_parse (si hi : Option Isa) (src : Slice) : BProg (List Byte) := call do
  let p ← arg .shared src.ptr src.len
  parse_uuid ⟨p, src.len⟩ (parse si hi)

/-- `UuidExt::parse_simple` (ext.rs:67-69). -/
def ext_parse_simple (i : Option Isa) (src : Slice) : BProg (List Byte) := call do
  let p ← arg .shared src.ptr src.len
  parse_uuid ⟨p, src.len⟩ (parse_simple i)

/-- `UuidExt::parse_hyphenated` (ext.rs:72-74). -/
def ext_parse_hyphenated (i : Option Isa) (src : Slice) : BProg (List Byte) := call do
  let p ← arg .shared src.ptr src.len
  parse_uuid ⟨p, src.len⟩ (parse_hyphenated i)

/-- `Uuid::as_bytes(&self)` of crate `uuid`, and `from_utf8_unchecked` of the standard library: a reference to the `n` bytes is passed and one is returned. -/
def as_bytes (p : Ptr) (n : Nat) : BProg Ptr := call do
  let p ← arg .shared p n
  retag .shared p n

/-- The end of `format_uuid` (ext.rs:109): `ans` becomes `&str`, and the closure gets it and reads it. -/
def read_str (ans : Ptr) (n : Nat) : BProg (List Byte) := do
  let t ← retag .shared ans n
  let t ← as_bytes t n
  call do
    let t ← arg .shared t n
    Borrow.prog (loadBytes t n)

/-- `format_uuid` (ext.rs:99-110). -/
def format_uuid (N : Nat) (src : Ptr) (f : Ptr → Ptr → AsciiCase → BProg Slice) (case : AsciiCase) : BProg (List Byte) := call do
  let p ← arg .shared src 16
  let buf ← alloc N
  let src ← as_bytes p 16
  let dst ← as_mut_ptr buf N
  let ans ← f src dst case
  let text ← read_str ans.ptr ans.len
  dealloc buf N
  pure text

/-- `LowerHex`, `UpperHex`, `Display` for `Simple` (ext.rs:112-118, 132-138, 152-157). -/
def fmt_simple (i : Option Isa) (src : Ptr) (case : AsciiCase) : BProg (List Byte) := format_uuid 32 src (format_simple i) case
/-- `LowerHex`, `UpperHex`, `Display` for `Hyphenated` (ext.rs:120-130, 140-150, 159-164). -/
def fmt_hyphenated (i : Option Isa) (src : Ptr) (case : AsciiCase) : BProg (List Byte) := format_uuid 36 src (format_hyphenated i) case

end Simd.Borrow.Uuid

namespace Simd

/-- The function called, with borrow stacks. -/
def ExtCall.borrow : ExtCall → Borrow.BProg (List Byte)
  | parse si hi src => Borrow.Uuid.ext_parse si hi src
  | parseSimple i src => Borrow.Uuid.ext_parse_simple i src
  | parseHyphenated i src => Borrow.Uuid.ext_parse_hyphenated i src
  | formatSimple i case src => Borrow.Uuid.fmt_simple i src case
  | formatHyphenated i case src => Borrow.Uuid.fmt_hyphenated i src case

end Simd
