import Verif.Model.TreeHeap
/-
The functions of uuid-simd's `ext.rs` with the references they make, under the rules of Verif/Model/TreeBorrows.lean.

A local variable is an allocation that is deallocated at the end of the scope. The functions that take `impl AsRef<[u8]>` are written down for `&[u8]`.

Not written down: `as_ref`, which passes its argument on; the borrows of `Simple` and `Hyphenated`, which contain a reference and no bytes of the value; and what the formatter does with the text
other than reading it.
-/
namespace Simd

/-- The functions of `UuidExt` that parse, and the formatters of `Simple` and `Hyphenated` (crates/uuid-simd/src/ext.rs:60-74, 112-164). -/
inductive ExtCall where
  | parse (si hi : Option Isa) (src : Slice)
  | parseSimple (i : Option Isa) (src : Slice)
  | parseHyphenated (i : Option Isa) (src : Slice)
  | formatSimple (i : Option Isa) (case : AsciiCase) (src : Ptr)
  | formatHyphenated (i : Option Isa) (case : AsciiCase) (src : Ptr)

namespace ExtCall

/-- The bytes it borrows with `&`. -/
def shared : ExtCall → Slice
  | parse _ _ src | parseSimple _ src | parseHyphenated _ src => src
  | formatSimple _ _ src | formatHyphenated _ _ src => ⟨src, 16⟩

end ExtCall

namespace Tree.Uuid

/-- `parse_uuid` (ext.rs:50-58). `as_mut_ptr` and `assume_init` are those of `MaybeUninit<Uuid>`; `assume_init` takes the variable itself, not a reference to it. -/
def parse_uuid (src : Slice) (f : Slice → Ptr → BProg Slice) : BProg (List Byte) := call do
  let p ← arg .shared src.ptr src.len
  let uuid ← alloc 16
  let out ← as_mut_ptr uuid 16
  let _ ← orDrop (f ⟨p, src.len⟩ out) (dealloc uuid 16)
  let ans ← Tree.prog (loadBytes uuid 16)
  dealloc uuid 16
  pure ans

/-- `UuidExt::parse` (ext.rs:62-64). -/
def ext_parse (si hi : Option Isa) (src : Slice) : BProg (List Byte) := call do
  let p ← arg .shared src.ptr src.len
  parse_uuid ⟨p, src.len⟩ (parse si hi)

/-- `UuidExt::parse_simple` (ext.rs:67-69). -/
def ext_parse_simple (i : Option Isa) (src : Slice) : BProg (List Byte) := call do
  let p ← arg .shared src.ptr src.len
  parse_uuid ⟨p, src.len⟩ (parse_simple i)

/-- `UuidExt::parse_hyphenated` (ext.rs:72-74). -/
def ext_parse_hyphenated (i : Option Isa) (src : Slice) : BProg (List Byte) := call do
  let p ← arg .shared src.ptr src.len
  parse_uuid ⟨p, src.len⟩ (parse_hyphenated i)

/-- `Uuid::as_bytes(&self)` of crate `uuid`, and `from_utf8_unchecked` of the standard library: a reference to the `n` bytes is passed and one is returned. -/
def as_bytes (p : Ptr) (n : Nat) : BProg Ptr := call do
  let p ← arg .shared p n
  retag .shared p n

/-- The end of `format_uuid` (ext.rs:109): `ans` becomes `&str`, and the closure gets it and reads it. -/
def read_str (ans : Ptr) (n : Nat) : BProg (List Byte) := do
  let t ← retag .shared ans n
  let t ← as_bytes t n
  call do
    let t ← arg .shared t n
    Tree.prog (loadBytes t n)

/-- `format_uuid` (ext.rs:99-110). -/
def format_uuid (N : Nat) (src : Ptr) (f : Ptr → Ptr → AsciiCase → BProg Slice) (case : AsciiCase) : BProg (List Byte) := call do
  let p ← arg .shared src 16
  let buf ← alloc N
  let src ← as_bytes p 16
  let dst ← as_mut_ptr buf N
  let ans ← f src dst case
  let text ← read_str ans.ptr ans.len
  dealloc buf N
  pure text

/-- `LowerHex`, `UpperHex`, `Display` for `Simple` (ext.rs:112-118, 132-138, 152-157). -/
def fmt_simple (i : Option Isa) (src : Ptr) (case : AsciiCase) : BProg (List Byte) := format_uuid 32 src (format_simple i) case
/-- `LowerHex`, `UpperHex`, `Display` for `Hyphenated` (ext.rs:120-130, 140-150, 159-164). -/
def fmt_hyphenated (i : Option Isa) (src : Ptr) (case : AsciiCase) : BProg (List Byte) := format_uuid 36 src (format_hyphenated i) case

end Tree.Uuid

/-- The function called, with borrow trees. -/
def ExtCall.tree : ExtCall → Tree.BProg (List Byte)
  | parse si hi src => Tree.Uuid.ext_parse si hi src
  | parseSimple i src => Tree.Uuid.ext_parse_simple i src
  | parseHyphenated i src => Tree.Uuid.ext_parse_hyphenated i src
  | formatSimple i case src => Tree.Uuid.fmt_simple i src case
  | formatHyphenated i case src => Tree.Uuid.fmt_hyphenated i src case

end Simd
