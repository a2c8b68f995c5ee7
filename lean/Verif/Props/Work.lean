import Verif.Lemmas.WorkHex
import Verif.Lemmas.WorkBase64
import Verif.Lemmas.WorkBase32
import Verif.Lemmas.WorkUnicode
/-
C74: every operation on slices does an amount of work on memory that is at most linear in the length of its input, on every path: also when it fails,
panics or is called on memory it must not touch. `Spec.work` counts the accesses and the bytes they transfer, repetitions included, so the bounds say that
no part of an input is gone over again and again, whatever it contains.
-/
namespace Simd

namespace Base64
/-- The dearest path is the scalar one: one access of eight bytes and eight stores of a character for six input bytes. -/
theorem C74_encode (P : Plat) (i : Option Isa) (config : Config) (src dst : Slice) (m : Mem) :
    Spec.work ((encode P i config src dst).trace m) ≤ 5 * src.len + 12 := (cost_encode src dst P i config).work_le m
theorem C74_decode (i : Option Isa) (config : Config) (src dst : Slice) (m : Mem) :
    Spec.work ((decode i config src dst).trace m) ≤ 4 * src.len + 12 := (cost_decode src dst i config).work_le m
theorem C74_inplace (i : Option Isa) (config : Config) (d : Slice) (m : Mem) :
    Spec.work ((decode_inplace i config d).trace m) ≤ 4 * d.len + 12 := (cost_decode_inplace d i config).work_le m
theorem C74_check (i : Option Isa) (config : Config) (d : Slice) (m : Mem) :
    Spec.work ((check i config d).trace m) ≤ 2 * d.len + 8 := (cost_check d i config).work_le m
theorem C74_forgiving (fi di : Option Isa) (src dst : Slice) (m : Mem) :
    Spec.work ((forgiving_decode fi di src dst).trace m) ≤ 10 * src.len + 65 := (cost_forgiving src dst fi di).work_le m
theorem C74_forgiving_inplace (fi di : Option Isa) (d : Slice) (m : Mem) :
    Spec.work ((forgiving_decode_inplace fi di d).trace m) ≤ 10 * d.len + 63 := (cost_forgiving_inplace d fi di).work_le m
end Base64

namespace Base32
theorem C74_encode (P : Plat) (w : Bool) (i : Option Isa) (config : Config) (src dst : Slice) (m : Mem) :
    Spec.work ((encode P w i config src dst).trace m) ≤ 6 * src.len + 24 := (cost_encode src dst P w i config).work_le m
theorem C74_decode (w : Bool) (i : Option Isa) (config : Config) (src dst : Slice) (m : Mem) :
    Spec.work ((decode w i config src dst).trace m) ≤ 4 * src.len + 29 := (cost_decode src dst w i config).work_le m
theorem C74_inplace (w : Bool) (i : Option Isa) (config : Config) (d : Slice) (m : Mem) :
    Spec.work ((decode_inplace w i config d).trace m) ≤ 4 * d.len + 29 := (cost_decode_inplace d w i config).work_le m
theorem C74_check (i : Option Isa) (config : Config) (d : Slice) (m : Mem) :
    Spec.work ((check i config d).trace m) ≤ 2 * d.len + 21 := (cost_check d i config).work_le m
end Base32

namespace Hex
theorem C74_encode (P : Plat) (i : Option Isa) (case : AsciiCase) (src dst : Slice) (m : Mem) :
    Spec.work ((encode P i src dst case).trace m) ≤ 6 * src.len := (cost_encode src dst P i case).work_le m
theorem C74_decode (i : Option Isa) (src dst : Slice) (m : Mem) :
    Spec.work ((decode i src dst).trace m) ≤ 3 * src.len + 3 := (cost_decode src dst i).work_le m
theorem C74_inplace (i : Option Isa) (d : Slice) (m : Mem) :
    Spec.work ((decode_inplace i d).trace m) ≤ 3 * d.len + 3 := (cost_decode_inplace d i).work_le m
theorem C74_check (i : Option Isa) (d : Slice) (m : Mem) :
    Spec.work ((check i d).trace m) ≤ 2 * d.len := (cost_check_auto i d.ptr d.len).work_le m
end Hex

namespace Uuid
/-- The whole of `parse` is bounded by a constant: an input of another length than 32, 36, 38 or 45 costs nothing. -/
theorem C74_parse (si hi : Option Isa) (src : Slice) (q : Ptr) (m : Mem) :
    Spec.work ((parse si hi src q).trace m) ≤ 114 := (cost_parse si hi src q).work_le m
theorem C74_parse_simple (i : Option Isa) (src : Slice) (q : Ptr) (m : Mem) :
    Spec.work ((parse_simple i src q).trace m) ≤ 96 := (cost_parse_simple i src q).work_le m
theorem C74_parse_hyphenated (i : Option Isa) (src : Slice) (q : Ptr) (m : Mem) :
    Spec.work ((parse_hyphenated i src q).trace m) ≤ 104 := (cost_parse_hyphenated i src q).work_le m
theorem C74_format_simple (i : Option Isa) (case : AsciiCase) (p q : Ptr) (m : Mem) :
    Spec.work ((format_simple i p q case).trace m) ≤ 96 := (cost_format_simple i p q case).work_le m
theorem C74_format_hyphenated (i : Option Isa) (case : AsciiCase) (p q : Ptr) (m : Mem) :
    Spec.work ((format_hyphenated i p q case).trace m) ≤ 106 := (cost_format_hyphenated i p q case).work_le m
/-- The methods of `UuidExt` add the reading of the local array. -/
theorem C74_ext_parse (si hi : Option Isa) (src : Slice) (m : Mem) :
    Spec.work ((ext_parse si hi src).trace m) ≤ 131 := (cost_parse_uuid src fun q => cost_parse si hi src q).work_le m
theorem C74_ext_format (i : Option Isa) (case : AsciiCase) (p : Ptr) (m : Mem) :
    Spec.work ((fmt_simple i p case).trace m) ≤ 129 ∧ Spec.work ((fmt_hyphenated i p case).trace m) ≤ 143 :=
  ⟨(cost_format_uuid 32 p case fun q => cost_format_simple i p q case).work_le m,
    (cost_format_uuid 36 p case fun q => cost_format_hyphenated i p q case).work_le m⟩
end Uuid

namespace Unicode
theorem C74_is_ascii (x64 : Bool) (i : Option Isa) (d : Slice) (m : Mem) :
    Spec.work ((is_ascii x64 i d).trace m) ≤ 2 * d.len + 68 := (cost_is_ascii d x64 i).work_le m
/-- `d.len` counts `u32` values. -/
theorem C74_is_utf32le (i : Option Isa) (d : Slice) (m : Mem) :
    Spec.work ((is_utf32le i d).trace m) ≤ 5 * d.len := (cost_is_utf32le d i).work_le m
theorem C74_utf16 (i : Option Isa) (src dst : Slice) (m : Mem) :
    Spec.work ((swap_endianness .u16 i src dst).trace m) ≤ 6 * src.len := (cost_swap_endianness src dst .u16 i).work_le m
theorem C74_utf32 (i : Option Isa) (src dst : Slice) (m : Mem) :
    Spec.work ((swap_endianness .u32 i src dst).trace m) ≤ 10 * src.len := (cost_swap_endianness src dst .u32 i).work_le m
theorem C74_swap_inplace (i : Option Isa) (d : Slice) (m : Mem) :
    Spec.work ((swap_endianness_inplace .u16 i d).trace m) ≤ 6 * d.len ∧ Spec.work ((swap_endianness_inplace .u32 i d).trace m) ≤ 10 * d.len :=
  ⟨(cost_swap_endianness_inplace d .u16 i).work_le m, (cost_swap_endianness_inplace d .u32 i).work_le m⟩
end Unicode

/-! ### The bounds are reached -/

/-- The bound of `Uuid::format_simple` on the scalar path is met exactly. -/
example : Spec.work ((Uuid.format_simple none ⟨0, 0⟩ ⟨1, 0⟩ .lower).trace (Mem.ofBufs [List.replicate 16 0x5a#8, List.replicate 32 0#8])) = 96 := by decide +kernel

/-- A single byte read twice counts twice. -/
example : Spec.work ((do let _ ← rd ⟨0, 0⟩ 0; let _ ← rd ⟨0, 0⟩ 0; pure () : Prog Unit).trace (Mem.ofBufs [[0x41#8]])) = 4 := by decide +kernel

/-- Base32 encoding of one byte, padded: one read and eight stores. -/
example : Spec.work ((Base32.encode_extra false ⟨0, 0⟩ 1 ⟨1, 0⟩ (Base32.charset .base32) true).trace (Mem.ofBufs [[0x41#8], List.replicate 8 0#8])) = 18 := by
  decide +kernel

end Simd
