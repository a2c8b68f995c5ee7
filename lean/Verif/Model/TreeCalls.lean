import Verif.Model.TreeBorrows
import Verif.Model.Calls
/-
The safe functions on slices with the references they make, under the rules of Verif/Model/TreeBorrows.lean: the functions of Verif/Model/BorrowCalls.lean, except that a raw pointer made from a reference
has the tag of the reference. The loops get raw pointers and make no references to what these point to, so they are the programs of the other files.

Not written down: the new tags of references that are returned or moved. `Out` (crate `outref`) contains a raw pointer; `Out::as_mut_ptr` returns it and `Out::len` reads no memory behind it.
-/
namespace Simd.Tree

/-- `<[T]>::as_ptr(&self)` on `n` bytes. -/
def as_ptr (p : Ptr) (n : Nat) : BProg Ptr := call do
  let p ← arg .shared p n
  return p

/-- `<[T]>::as_mut_ptr(&mut self)` on `n` bytes; the argument is `&mut *p`. -/
def as_mut_ptr (p : Ptr) (n : Nat) : BProg Ptr := do
  let p ← retag .mut p n
  call do
    let p ← arg .mut p n
    return p

/-- `slice_parts` (crates/vsimd/src/tools.rs:86-90) on `n` bytes; the length is left out. -/
def slice_parts (p : Ptr) (n : Nat) : BProg Ptr := call do
  let p ← arg .shared p n
  as_ptr p n

/-- `slice_mut` (crates/vsimd/src/tools.rs:59-61), or `&mut *dst.cast()`, on `n` bytes. -/
def slice_mut (p : Ptr) (n : Nat) : BProg Ptr := retag .mut p n

/-! ### base64-simd -/

namespace Base64

/-- A call of `decoded_length` (decode.rs:30-77). -/
def decoded_length (src : Slice) (config : Simd.Base64.Config) : BProg (Nat × Nat) := call do
  let p ← arg .shared src.ptr src.len
  prog (Simd.Base64.decoded_length ⟨p, src.len⟩ config)

/-- `check` (lib.rs:222-225). -/
def check (i : Option Isa) (config : Simd.Base64.Config) (data : Slice) : BProg Unit := call do
  let p ← arg .shared data.ptr data.len
  let (n, _) ← decoded_length ⟨p, data.len⟩ config
  let src ← as_ptr p data.len
  prog (Simd.Base64.check_auto i src n config)

/-- `encode` (lib.rs:232-243). -/
def encode (P : Plat) (i : Option Isa) (config : Simd.Base64.Config) (src dst : Slice) : BProg Slice := call do
  let p ← arg .shared src.ptr src.len
  let m ← prog (liftO (Simd.Base64.encoded_length_unchecked P src.len config))
  prog (ensure (dst.len ≥ m))
  let s ← slice_parts p src.len
  prog (Simd.Base64.encode_auto i s src.len dst.ptr config)
  let r ← slice_mut dst.ptr m
  return ⟨r, m⟩

/-- `decode` (lib.rs:262-273). -/
def decode (i : Option Isa) (config : Simd.Base64.Config) (src dst : Slice) : BProg Slice := call do
  let p ← arg .shared src.ptr src.len
  let (n, m) ← decoded_length ⟨p, src.len⟩ config
  prog (ensure (dst.len ≥ m))
  let s ← as_ptr p src.len
  prog (Simd.Base64.decode_auto i s dst.ptr n config)
  let r ← slice_mut dst.ptr m
  return ⟨r, m⟩

/-- `decode_inplace` (lib.rs:280-290): `decoded_length` gets `&*data`. -/
def decode_inplace (i : Option Isa) (config : Simd.Base64.Config) (data : Slice) : BProg Slice := call do
  let p ← arg .mut data.ptr data.len
  let c ← retag .shared p data.len
  let (n, m) ← decoded_length ⟨c, data.len⟩ config
  let dst ← as_mut_ptr p data.len
  let src := dst
  prog (Simd.Base64.decode_auto i src dst n config)
  let r ← slice_mut dst m
  return ⟨r, m⟩

/-- `find_non_ascii_whitespace` (ascii.rs:104-107). -/
def find_non_ascii_whitespace (fi : Option Isa) (data : Slice) : BProg Nat := call do
  let p ← arg .shared data.ptr data.len
  let s ← slice_parts p data.len
  prog (Simd.Base64.find_non_ascii_whitespace fi ⟨s, data.len⟩)

/-- `remove_ascii_whitespace_inplace` (ascii.rs:129-147): the scanner gets `&*data`; `get_unchecked_mut` makes a new reference from `&mut *data`. -/
def remove_ascii_whitespace_inplace (fi : Option Isa) (data : Slice) : BProg Slice := call do
  let p ← arg .mut data.ptr data.len
  let c ← retag .shared p data.len
  let pos ← find_non_ascii_whitespace fi ⟨c, data.len⟩
  prog (assert (pos ≤ data.len))
  if pos = data.len then pure ⟨p, data.len⟩
  else do
    let dst ← as_mut_ptr p data.len
    prog (padd dst pos)
    let dst := dst.add pos
    let src := dst
    let rem ← prog (Simd.Base64.remove_ascii_whitespace_fallback src (data.len - pos) dst)
    prog (assert (rem ≤ data.len - pos))
    if pos + rem ≤ data.len then do
      let d ← retag .mut p data.len
      let r ← call do
        let d ← arg .mut d data.len
        retag .mut d (pos + rem)
      pure ⟨r, pos + rem⟩
    else prog .ub

/-- `forgiving_decode_inplace` (forgiving.rs:21-24). -/
def forgiving_decode_inplace (fi di : Option Isa) (data : Slice) : BProg Slice := call do
  let p ← arg .mut data.ptr data.len
  let p ← retag .mut p data.len
  let data ← remove_ascii_whitespace_inplace fi ⟨p, data.len⟩
  let p ← retag .mut data.ptr data.len
  decode_inplace di Simd.Base64.STANDARD_FORGIVING ⟨p, data.len⟩

/-- `forgiving_decode` (forgiving.rs:38-61). -/
def forgiving_decode (fi di : Option Isa) (src dst : Slice) : BProg Slice := call do
  let p ← arg .shared src.ptr src.len
  prog (ensure (src.len ≤ dst.len))
  let pos ← find_non_ascii_whitespace fi ⟨p, src.len⟩
  prog (assert (pos ≤ src.len))
  if pos = src.len then decode di Simd.Base64.STANDARD_FORGIVING ⟨p, src.len⟩ dst
  else do
    let s ← as_ptr p src.len
    let dst := dst.ptr
    prog (Simd.Base64.copy_nonoverlapping s dst pos)
    prog (padd s pos)
    prog (padd dst pos)
    let rem ← prog (Simd.Base64.remove_ascii_whitespace_fallback (s.add pos) (src.len - pos) (dst.add pos))
    prog (assert (rem ≤ src.len - pos))
    let data ← slice_mut dst (pos + rem)
    decode_inplace di Simd.Base64.STANDARD_FORGIVING ⟨data, pos + rem⟩

end Base64

/-! ### base32-simd -/

namespace Base32

/-- A call of `decoded_length` (decode.rs:29-50). -/
def decoded_length (src : Slice) (padding : Bool) : BProg (Nat × Nat) := call do
  let p ← arg .shared src.ptr src.len
  prog (Simd.Base32.decoded_length ⟨p, src.len⟩ padding)

/-- `check` (lib.rs:173-177). -/
def check (i : Option Isa) (config : Simd.Base32.Config) (data : Slice) : BProg Unit := call do
  let p ← arg .shared data.ptr data.len
  let (n, _) ← decoded_length ⟨p, data.len⟩ config.padding
  let src ← as_ptr p data.len
  prog (Simd.Base32.check_auto i src n config.kind)

/-- `encode` (lib.rs:184-195). -/
def encode (P : Plat) (w : Bool) (i : Option Isa) (config : Simd.Base32.Config) (src dst : Slice) : BProg Slice := call do
  let p ← arg .shared src.ptr src.len
  let m ← prog (liftO (Simd.Base32.encoded_length_unchecked P src.len config.padding))
  prog (ensure (dst.len ≥ m))
  let s ← slice_parts p src.len
  prog (Simd.Base32.encode_auto w i s src.len dst.ptr config.kind config.padding)
  let r ← slice_mut dst.ptr m
  return ⟨r, m⟩

/-- `decode` (lib.rs:214-225). -/
def decode (w : Bool) (i : Option Isa) (config : Simd.Base32.Config) (src dst : Slice) : BProg Slice := call do
  let p ← arg .shared src.ptr src.len
  let (n, m) ← decoded_length ⟨p, src.len⟩ config.padding
  prog (ensure (dst.len ≥ m))
  let s ← as_ptr p src.len
  prog (Simd.Base32.decode_auto w i s n dst.ptr config.kind)
  let r ← slice_mut dst.ptr m
  return ⟨r, m⟩

/-- `decode_inplace` (lib.rs:232-242). -/
def decode_inplace (w : Bool) (i : Option Isa) (config : Simd.Base32.Config) (data : Slice) : BProg Slice := call do
  let p ← arg .mut data.ptr data.len
  let c ← retag .shared p data.len
  let (n, m) ← decoded_length ⟨c, data.len⟩ config.padding
  let dst ← as_mut_ptr p data.len
  let src := dst
  prog (Simd.Base32.decode_auto w i src n dst config.kind)
  let r ← slice_mut dst m
  return ⟨r, m⟩

end Base32

/-! ### hex-simd -/

namespace Hex

/-- `check` (lib.rs:145-148). -/
def check (i : Option Isa) (data : Slice) : BProg Unit := call do
  let p ← arg .shared data.ptr data.len
  let src ← slice_parts p data.len
  prog (Simd.Hex.check_auto i src data.len)

/-- `encode` (lib.rs:157-165). -/
def encode (P : Plat) (i : Option Isa) (src dst : Slice) (case : AsciiCase) : BProg Slice := call do
  let p ← arg .shared src.ptr src.len
  prog (ensure (dst.len / 2 ≥ src.len))
  let s ← slice_parts p src.len
  prog (Simd.Hex.encode_auto i s src.len dst.ptr case)
  let m ← prog (liftO (P.mulU src.len 2))
  let r ← slice_mut dst.ptr m
  return ⟨r, m⟩

/-- `decode` (lib.rs:174-184). -/
def decode (i : Option Isa) (src dst : Slice) : BProg Slice := call do
  let p ← arg .shared src.ptr src.len
  prog (ensure (src.len % 2 == 0 && dst.len ≥ src.len / 2))
  let s ← as_ptr p src.len
  prog (Simd.Hex.decode_auto i s src.len dst.ptr)
  let r ← slice_mut dst.ptr (src.len / 2)
  return ⟨r, src.len / 2⟩

/-- `decode_inplace` (lib.rs:191-200). -/
def decode_inplace (i : Option Isa) (data : Slice) : BProg Slice := call do
  let p ← arg .mut data.ptr data.len
  prog (ensure (data.len % 2 == 0))
  let dst ← as_mut_ptr p data.len
  let src := dst
  prog (Simd.Hex.decode_auto i src data.len dst)
  let r ← slice_mut dst (data.len / 2)
  return ⟨r, data.len / 2⟩

end Hex

/-! ### uuid-simd -/

namespace Uuid

/-- The pointer to the hyphenated text chosen by `parse` (lib.rs:94-105): for 38 bytes the braces are read through the raw pointer; for 45 bytes
`strip_prefix` gets the reference, compares and returns a reference to the rest. -/
def hyphenated_start (src : Slice) : BProg Ptr :=
  if src.len = 45 then do
    let p ← call do
      let p ← arg .shared src.ptr src.len
      let p ← prog (Simd.Uuid.hyphenated_start ⟨p, src.len⟩)
      retag .shared p 36
    as_ptr p 36
  else if src.len = 36 ∨ src.len = 38 then do
    let p ← as_ptr src.ptr src.len
    prog (Simd.Uuid.hyphenated_start ⟨p, src.len⟩)
  else prog .err

/-- `parse` (lib.rs:81-110). -/
def parse (si hi : Option Isa) (src : Slice) (dst : Ptr) : BProg Slice := call do
  let p ← arg .shared src.ptr src.len
  if src.len = 32 then do
    let s ← as_ptr p src.len
    prog (Simd.Uuid.parse_simple_auto si s dst)
    let r ← slice_mut dst 16
    return ⟨r, 16⟩
  else do
    let s ← hyphenated_start ⟨p, src.len⟩
    prog (Simd.Uuid.parse_hyphenated_auto hi s dst)
    let r ← slice_mut dst 16
    return ⟨r, 16⟩

/-- `parse_simple` (lib.rs:120-128). -/
def parse_simple (i : Option Isa) (src : Slice) (dst : Ptr) : BProg Slice := call do
  let p ← arg .shared src.ptr src.len
  prog (ensure (src.len == 32))
  let s ← as_ptr p src.len
  prog (Simd.Uuid.parse_simple_auto i s dst)
  let r ← slice_mut dst 16
  return ⟨r, 16⟩

/-- `parse_hyphenated` (lib.rs:138-146). -/
def parse_hyphenated (i : Option Isa) (src : Slice) (dst : Ptr) : BProg Slice := call do
  let p ← arg .shared src.ptr src.len
  prog (ensure (src.len == 36))
  let s ← as_ptr p src.len
  prog (Simd.Uuid.parse_hyphenated_auto i s dst)
  let r ← slice_mut dst 16
  return ⟨r, 16⟩

/-- `format_simple` (lib.rs:151-158). -/
def format_simple (i : Option Isa) (src dst : Ptr) (case : AsciiCase) : BProg Slice := call do
  let p ← arg .shared src 16
  let s ← as_ptr p 16
  prog (Simd.Uuid.format_simple_auto i s dst case)
  let r ← slice_mut dst 32
  return ⟨r, 32⟩

/-- `format_hyphenated` (lib.rs:163-170). -/
def format_hyphenated (i : Option Isa) (src dst : Ptr) (case : AsciiCase) : BProg Slice := call do
  let p ← arg .shared src 16
  let s ← as_ptr p 16
  prog (Simd.Uuid.format_hyphenated_auto i s dst case)
  let r ← slice_mut dst 36
  return ⟨r, 36⟩

end Uuid

/-! ### unicode-simd -/

namespace Unicode

/-- `is_ascii` (lib.rs:44-47). -/
def is_ascii (x64 : Bool) (i : Option Isa) (data : Slice) : BProg Bool := call do
  let p ← arg .shared data.ptr data.len
  let src ← slice_parts p data.len
  prog (Simd.Unicode.is_ascii_auto x64 i src data.len)

/-- `is_utf32le` (lib.rs:59-62). -/
def is_utf32le (i : Option Isa) (data : Slice) : BProg Bool := call do
  let p ← arg .shared data.ptr (4 * data.len)
  let src ← slice_parts p (4 * data.len)
  prog (Simd.Unicode.is_utf32le_auto i src data.len)

/-- `utf32_swap_endianness` (lib.rs:79-86) and `utf16_swap_endianness` (lib.rs:103-110). -/
def swap_endianness (t : Simd.Unicode.Elem) (i : Option Isa) (src dst : Slice) : BProg Slice := call do
  let p ← arg .shared src.ptr (t.size * src.len)
  prog (assert (src.len ≤ dst.len))
  let s ← as_ptr p (t.size * src.len)
  prog (Simd.Unicode.swap_auto t i s src.len dst.ptr)
  let r ← slice_mut dst.ptr (t.size * src.len)
  return ⟨r, src.len⟩

/-- `utf32_swap_endianness_inplace` (lib.rs:66-71) and `utf16_swap_endianness_inplace` (lib.rs:90-95). -/
def swap_endianness_inplace (t : Simd.Unicode.Elem) (i : Option Isa) (data : Slice) : BProg Unit := call do
  let p ← arg .mut data.ptr (t.size * data.len)
  let dst ← as_mut_ptr p (t.size * data.len)
  let src := dst
  prog (Simd.Unicode.swap_auto t i src data.len dst)

end Unicode

end Simd.Tree

namespace Simd.Call
open Tree

/-- The function called, with borrow trees; the pointers of the call are tagged. -/
def tree {α : Type} (P : Plat) : Call α → BProg α
  | base64Encode i config src dst => Tree.Base64.encode P i config src dst
  | base64Decode i config src dst => Tree.Base64.decode i config src dst
  | base64Inplace i config data => Tree.Base64.decode_inplace i config data
  | base64Check i config data => Tree.Base64.check i config data
  | forgiving fi di src dst => Tree.Base64.forgiving_decode fi di src dst
  | forgivingInplace fi di data => Tree.Base64.forgiving_decode_inplace fi di data
  | base32Encode w i config src dst => Tree.Base32.encode P w i config src dst
  | base32Decode w i config src dst => Tree.Base32.decode w i config src dst
  | base32Inplace w i config data => Tree.Base32.decode_inplace w i config data
  | base32Check i config data => Tree.Base32.check i config data
  | hexEncode i case src dst => Tree.Hex.encode P i src dst case
  | hexDecode i src dst => Tree.Hex.decode i src dst
  | hexInplace i data => Tree.Hex.decode_inplace i data
  | hexCheck i data => Tree.Hex.check i data
  | uuidParse si hi src dst => Tree.Uuid.parse si hi src dst
  | uuidParseSimple i src dst => Tree.Uuid.parse_simple i src dst
  | uuidParseHyphenated i src dst => Tree.Uuid.parse_hyphenated i src dst
  | uuidFormatSimple i case src dst => Tree.Uuid.format_simple i src dst case
  | uuidFormatHyphenated i case src dst => Tree.Uuid.format_hyphenated i src dst case
  | isAscii x64 i data => Tree.Unicode.is_ascii x64 i data
  | isUtf32le i data => Tree.Unicode.is_utf32le i data
  | swap t i src dst => Tree.Unicode.swap_endianness t i src dst
  | swapInplace t i data => Tree.Unicode.swap_endianness_inplace t i data

end Simd.Call
