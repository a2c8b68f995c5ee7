import Verif.Model.Forgiving
import Verif.Model.Base32
import Verif.Model.HexHeap
import Verif.Model.Uuid
import Verif.Model.Unicode
/-
The safe functions of the crates that work on slices, as one type, with the borrows of their signatures.
-/
namespace Simd

/-- A call, indexed by the type of its result: base64-simd (lib.rs:222-290, forgiving.rs:21-61), base32-simd (lib.rs:173-242), hex-simd (lib.rs:145-200),
uuid-simd (lib.rs:81-170), unicode-simd (lib.rs:44-110). The implementation the dispatcher chose is part of the call. -/
inductive Call : Type → Type where
  | base64Encode (i : Option Isa) (config : Base64.Config) (src dst : Slice) : Call Slice
  | base64Decode (i : Option Isa) (config : Base64.Config) (src dst : Slice) : Call Slice
  | base64Inplace (i : Option Isa) (config : Base64.Config) (data : Slice) : Call Slice
  | base64Check (i : Option Isa) (config : Base64.Config) (data : Slice) : Call Unit
  | forgiving (fi di : Option Isa) (src dst : Slice) : Call Slice
  | forgivingInplace (fi di : Option Isa) (data : Slice) : Call Slice
  | base32Encode (w : Bool) (i : Option Isa) (config : Base32.Config) (src dst : Slice) : Call Slice
  | base32Decode (w : Bool) (i : Option Isa) (config : Base32.Config) (src dst : Slice) : Call Slice
  | base32Inplace (w : Bool) (i : Option Isa) (config : Base32.Config) (data : Slice) : Call Slice
  | base32Check (i : Option Isa) (config : Base32.Config) (data : Slice) : Call Unit
  | hexEncode (i : Option Isa) (case : AsciiCase) (src dst : Slice) : Call Slice
  | hexDecode (i : Option Isa) (src dst : Slice) : Call Slice
  | hexInplace (i : Option Isa) (data : Slice) : Call Slice
  | hexCheck (i : Option Isa) (data : Slice) : Call Unit
  | uuidParse (si hi : Option Isa) (src : Slice) (dst : Ptr) : Call Slice
  | uuidParseSimple (i : Option Isa) (src : Slice) (dst : Ptr) : Call Slice
  | uuidParseHyphenated (i : Option Isa) (src : Slice) (dst : Ptr) : Call Slice
  | uuidFormatSimple (i : Option Isa) (case : AsciiCase) (src dst : Ptr) : Call Slice
  | uuidFormatHyphenated (i : Option Isa) (case : AsciiCase) (src dst : Ptr) : Call Slice
  | isAscii (x64 : Bool) (i : Option Isa) (data : Slice) : Call Bool
  | isUtf32le (i : Option Isa) (data : Slice) : Call Bool
  | swap (t : Unicode.Elem) (i : Option Isa) (src dst : Slice) : Call Slice
  | swapInplace (t : Unicode.Elem) (i : Option Isa) (data : Slice) : Call Unit

namespace Call

/-- The function called. -/
def prog {α : Type} (P : Plat) : Call α → Prog α
  | base64Encode i config src dst => Base64.encode P i config src dst
  | base64Decode i config src dst => Base64.decode i config src dst
  | base64Inplace i config data => Base64.decode_inplace i config data
  | base64Check i config data => Base64.check i config data
  | forgiving fi di src dst => Base64.forgiving_decode fi di src dst
  | forgivingInplace fi di data => Base64.forgiving_decode_inplace fi di data
  | base32Encode w i config src dst => Base32.encode P w i config src dst
  | base32Decode w i config src dst => Base32.decode w i config src dst
  | base32Inplace w i config data => Base32.decode_inplace w i config data
  | base32Check i config data => Base32.check i config data
  | hexEncode i case src dst => Hex.encode P i src dst case
  | hexDecode i src dst => Hex.decode i src dst
  | hexInplace i data => Hex.decode_inplace i data
  | hexCheck i data => Hex.check i data
  | uuidParse si hi src dst => Uuid.parse si hi src dst
  | uuidParseSimple i src dst => Uuid.parse_simple i src dst
  | uuidParseHyphenated i src dst => Uuid.parse_hyphenated i src dst
  | uuidFormatSimple i case src dst => Uuid.format_simple i src dst case
  | uuidFormatHyphenated i case src dst => Uuid.format_hyphenated i src dst case
  | isAscii x64 i data => Unicode.is_ascii x64 i data
  | isUtf32le i data => Unicode.is_utf32le i data
  | swap t i src dst => Unicode.swap_endianness t i src dst
  | swapInplace t i data => Unicode.swap_endianness_inplace t i data

/-- The bytes the call borrows with `&`: start and number. -/
def shared {α : Type} : Call α → Ptr × Nat
  | base64Encode _ _ src _ | base64Decode _ _ src _ | forgiving _ _ src _ | base32Encode _ _ _ src _ | base32Decode _ _ _ src _ | hexEncode _ _ src _
  | hexDecode _ src _ | uuidParse _ _ src _ | uuidParseSimple _ src _ | uuidParseHyphenated _ src _ => (src.ptr, src.len)
  | base64Check _ _ data | base32Check _ _ data | hexCheck _ data | isAscii _ _ data => (data.ptr, data.len)
  | uuidFormatSimple _ _ src _ | uuidFormatHyphenated _ _ src _ => (src, 16)
  | isUtf32le _ data => (data.ptr, 4 * data.len)
  | swap t _ src _ => (src.ptr, t.size * src.len)
  | base64Inplace _ _ data | forgivingInplace _ _ data | base32Inplace _ _ _ data | hexInplace _ data | swapInplace _ _ data => (data.ptr, 0)

/-- The bytes the call borrows with `&mut`: start and number. -/
def exclusive {α : Type} : Call α → Ptr × Nat
  | base64Encode _ _ _ dst | base64Decode _ _ _ dst | forgiving _ _ _ dst | base32Encode _ _ _ _ dst | base32Decode _ _ _ _ dst | hexEncode _ _ _ dst
  | hexDecode _ _ dst => (dst.ptr, dst.len)
  | base64Inplace _ _ data | forgivingInplace _ _ data | base32Inplace _ _ _ data | hexInplace _ data => (data.ptr, data.len)
  | uuidParse _ _ _ dst | uuidParseSimple _ _ dst | uuidParseHyphenated _ _ dst => (dst, 16)
  | uuidFormatSimple _ _ _ dst => (dst, 32)
  | uuidFormatHyphenated _ _ _ dst => (dst, 36)
  | swap t _ _ dst => (dst.ptr, t.size * dst.len)
  | swapInplace t _ data => (data.ptr, t.size * data.len)
  | base64Check _ _ data | base32Check _ _ data | hexCheck _ data | isAscii _ _ data | isUtf32le _ data => (data.ptr, 0)

end Call

end Simd
