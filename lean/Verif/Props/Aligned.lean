import Verif.Lemmas.Aligned
/-
C67: the functions on `u16` and `u32` slices access memory only at element boundaries.

`bswap_fallback` and `is_utf32le_fallback` use `src.read()` and `dst.write()`, for which a misaligned pointer is undefined behaviour; as slices of
`u16` and `u32` are aligned, so are all pointers a whole number of elements behind their start, also those behind the vector part.
-/
namespace Simd.Unicode

/-- C67, `is_utf32le`, for every implementation and in every memory. -/
theorem C67_is_utf32le (i : Option Isa) (data : Slice) (m : Mem) : Spec.StepAccesses 4 data.ptr data.ptr ((is_utf32le i data).trace m) :=
  (acc_is_utf32le data (W := Spec.WholeSteps 4 data.ptr) i).trace m

/-- C67, `utf16_swap_endianness` and `utf32_swap_endianness`. -/
theorem C67_swap (t : Elem) (i : Option Isa) (src dst : Slice) (m : Mem) :
    Spec.StepAccesses t.size src.ptr dst.ptr ((swap_endianness t i src dst).trace m) :=
  (Acc.seq (.assert _) fun _ => .seq (acc_swap_auto t i src.ptr dst.ptr src.len) fun _ => trivial : Acc' _ _ (swap_endianness t i src dst)).trace m

/-- C67, the in-place functions. -/
theorem C67_swap_inplace (t : Elem) (i : Option Isa) (data : Slice) (m : Mem) :
    Spec.StepAccesses t.size data.ptr data.ptr ((swap_endianness_inplace t i data).trace m) :=
  (acc_swap_auto t i data.ptr data.ptr data.len).trace m

/-- The accesses of swapping nine `u32` at offset 4 with AVX2: one vector, then one element. -/
example : (swap_endianness_inplace .u32 (some .avx2) ⟨⟨0, 4⟩, 9⟩).trace (Mem.ofBufs [List.replicate 40 (some 7#8)]) =
    [.load ⟨0, 4⟩ 32, .store ⟨0, 4⟩ 32, .load ⟨0, 36⟩ 4, .store ⟨0, 36⟩ 4] := by decide +kernel

/-- An access in the middle of an element is not a whole number of steps behind the base. -/
example : ¬ Spec.StepAccesses 4 ⟨0, 4⟩ ⟨0, 4⟩ [.load ⟨0, 4⟩ 4, .store ⟨0, 6⟩ 4] := by
  intro h
  obtain ⟨-, k, hk⟩ := h (.store ⟨0, 6⟩ 4) (by simp)
  simp at hk
  omega

end Simd.Unicode
