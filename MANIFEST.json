{
 "claims": [
  {
   "property": "C01",
   "status": "proved",
   "theorems": [
    "Simd.Base64.C01_encode"
   ],
   "note": ""
  },
  {
   "property": "C02",
   "status": "proved",
   "theorems": [
    "Simd.Base64.C02_encode_contract",
    "Simd.Base64.C01_encode"
   ],
   "note": ""
  },
  {
   "property": "C03",
   "status": "proved",
   "theorems": [
    "Simd.Base64.C03_round_trip"
   ],
   "note": ""
  },
  {
   "property": "C04",
   "status": "proved",
   "theorems": [
    "Simd.Base64.C04_decode_iff",
    "Simd.Base64.C04_decode_iff_encode",
    "Simd.Base64.C04_injective"
   ],
   "note": ""
  },
  {
   "property": "C05",
   "status": "proved",
   "theorems": [
    "Simd.Base64.C05_decode_ok",
    "Simd.Base64.C05_decode_err",
    "Simd.Base64.C05_fails_only_if_short"
   ],
   "note": ""
  },
  {
   "property": "C06",
   "status": "proved",
   "theorems": [
    "Simd.Base64.C06_inplace_ok",
    "Simd.Base64.C06_inplace_err",
    "Simd.Base64.C06_inplace_eq_copy"
   ],
   "note": ""
  },
  {
   "property": "C07",
   "status": "proved",
   "theorems": [
    "Simd.Base64.C07_check",
    "Simd.Base64.C07_check_agrees"
   ],
   "note": ""
  },
  {
   "property": "C08",
   "status": "proved",
   "theorems": [
    "Simd.Base64.C08_encoded_length",
    "Simd.Base64.C08_decoded_length",
    "Simd.Base64.C08_estimate"
   ],
   "note": "For every word size of at least 16 bits."
  },
  {
   "property": "C09",
   "status": "proved",
   "theorems": [
    "Simd.Base64.C09_independent",
    "Simd.Base64.targets_ok"
   ],
   "note": ""
  },
  {
   "property": "C10",
   "status": "proved",
   "theorems": [
    "Simd.Base64.C10_safe"
   ],
   "note": ""
  },
  {
   "property": "C11",
   "status": "proved",
   "theorems": [
    "Simd.Base64.C11_to_vec",
    "Simd.Base64.C12_inplace_ok",
    "Simd.Base64.C12_inplace_err",
    "Simd.Base64.C12_copy_ok",
    "Simd.Base64.C12_copy_err"
   ],
   "note": "forgiving_decode_to_vec: excludes only Vec's capacity-overflow panic."
  },
  {
   "property": "C12",
   "status": "proved",
   "theorems": [
    "Simd.Base64.C12_agree",
    "Simd.Base64.C12_inplace_ok",
    "Simd.Base64.C12_inplace_err",
    "Simd.Base64.C12_copy_ok",
    "Simd.Base64.C12_copy_err",
    "Simd.Base64.C12_copy_short"
   ],
   "note": ""
  },
  {
   "property": "C13",
   "status": "proved",
   "theorems": [
    "Simd.Base64.C13_encode_owned",
    "Simd.Base64.C13_decode_owned"
   ],
   "note": "Encoding panics iff the encoded length exceeds usize::MAX/2, as asserted in the code."
  },
  {
   "property": "C14",
   "status": "proved",
   "theorems": [
    "Simd.Base64.C14_encode_append",
    "Simd.Base64.C14_decode_append"
   ],
   "note": "Excludes only Vec's capacity-overflow panic."
  },
  {
   "property": "C15",
   "status": "proved",
   "theorems": [
    "Simd.Base64.C15_par_encode",
    "Simd.Base64.C15_same_as_encode",
    "Simd.Base64.C15_terminates"
   ],
   "note": "Any number of threads and any interleaving of the memory accesses of the chunk tasks; also no data race, no deadlock, termination."
  },
  {
   "property": "C16",
   "status": "partial",
   "theorems": [
    "Simd.Base64.C16_short_partial",
    "Simd.Base64.C16_panics",
    "Simd.Base64.C16_violated"
   ],
   "note": "The property is false for the code: on the parallel path a short dst panics (C16_panics for every such call, C16_violated a concrete witness). C16_short_partial proves it for the sequential path."
  },
  {
   "property": "C17",
   "status": "proved",
   "theorems": [
    "Simd.Base64.C17_alphabet",
    "Simd.Base64.C17_as_str",
    "Simd.Base64.C17_append"
   ],
   "note": ""
  },
  {
   "property": "C18",
   "status": "proved",
   "theorems": [
    "Simd.Base64.C18_find",
    "Simd.Base64.C18_remove"
   ],
   "note": ""
  },
  {
   "property": "C19",
   "status": "proved",
   "theorems": [
    "Simd.Base32.C19_encode"
   ],
   "note": ""
  },
  {
   "property": "C20",
   "status": "proved",
   "theorems": [
    "Simd.Base32.C20_encode_contract",
    "Simd.Base32.C19_encode"
   ],
   "note": ""
  },
  {
   "property": "C21",
   "status": "proved",
   "theorems": [
    "Simd.Base32.C21_round_trip"
   ],
   "note": ""
  },
  {
   "property": "C22",
   "status": "proved",
   "theorems": [
    "Simd.Base32.C22_decode_iff",
    "Simd.Base32.C22_decode_iff_encode",
    "Simd.Base32.C22_injective"
   ],
   "note": ""
  },
  {
   "property": "C23",
   "status": "proved",
   "theorems": [
    "Simd.Base32.C23_decode_ok",
    "Simd.Base32.C23_decode_err",
    "Simd.Base32.C23_fails_only_if_short"
   ],
   "note": ""
  },
  {
   "property": "C24",
   "status": "proved",
   "theorems": [
    "Simd.Base32.C24_inplace_ok",
    "Simd.Base32.C24_inplace_err",
    "Simd.Base32.C24_inplace_eq_copy"
   ],
   "note": ""
  },
  {
   "property": "C25",
   "status": "proved",
   "theorems": [
    "Simd.Base32.C25_check",
    "Simd.Base32.C25_check_agrees"
   ],
   "note": ""
  },
  {
   "property": "C26",
   "status": "proved",
   "theorems": [
    "Simd.Base32.C26_encoded_length",
    "Simd.Base32.C26_decoded_length",
    "Simd.Base32.C26_estimate"
   ],
   "note": "For every word size of at least 16 bits."
  },
  {
   "property": "C27",
   "status": "proved",
   "theorems": [
    "Simd.Base32.C27_independent",
    "Simd.Base32.C27_safe",
    "Simd.Base32.targets_ok"
   ],
   "note": ""
  },
  {
   "property": "C28",
   "status": "proved",
   "theorems": [
    "Simd.Base32.C28_encode_owned",
    "Simd.Base32.C28_decode_owned",
    "Simd.Base32.C28_encode_append",
    "Simd.Base32.C28_decode_append",
    "Simd.Base32.C28_alphabet",
    "Simd.Base32.C28_as_str",
    "Simd.Base32.C28_append_utf8"
   ],
   "note": "Append theorems exclude only Vec's capacity-overflow panic; encoding panics iff the encoded length exceeds usize::MAX/2, as asserted in the code."
  },
  {
   "property": "C29",
   "status": "proved",
   "theorems": [
    "Simd.Hex.C29_encode"
   ],
   "note": ""
  },
  {
   "property": "C30",
   "status": "proved",
   "theorems": [
    "Simd.Hex.C30_encode_contract"
   ],
   "note": ""
  },
  {
   "property": "C31",
   "status": "proved",
   "theorems": [
    "Simd.Hex.C31_decode_iff",
    "Simd.Hex.C31_decode_ok",
    "Simd.Hex.C31_decode_err"
   ],
   "note": ""
  },
  {
   "property": "C32",
   "status": "proved",
   "theorems": [
    "Simd.Hex.C32_round_trip"
   ],
   "note": ""
  },
  {
   "property": "C33",
   "status": "proved",
   "theorems": [
    "Simd.Hex.C33_fails_only_if_short",
    "Simd.Hex.C31_decode_ok",
    "Simd.Hex.C31_decode_err"
   ],
   "note": ""
  },
  {
   "property": "C34",
   "status": "proved",
   "theorems": [
    "Simd.Hex.C34_inplace_ok",
    "Simd.Hex.C34_inplace_err",
    "Simd.Hex.C34_inplace_eq_copy"
   ],
   "note": ""
  },
  {
   "property": "C35",
   "status": "proved",
   "theorems": [
    "Simd.Hex.C35_check",
    "Simd.Hex.C35_check_agrees"
   ],
   "note": ""
  },
  {
   "property": "C36",
   "status": "proved",
   "theorems": [
    "Simd.Hex.C36_independent",
    "Simd.Hex.C36_safe"
   ],
   "note": ""
  },
  {
   "property": "C37",
   "status": "proved",
   "theorems": [
    "Simd.Hex.C37_encoded_length",
    "Simd.Hex.C37_decoded_length",
    "Simd.Hex.C37_encode_to_string",
    "Simd.Hex.C37_decode_to_vec",
    "Simd.Hex.C37_decode_append",
    "Simd.Hex.C37_encode_append",
    "Simd.Hex.C37_ascii",
    "Simd.Hex.C37_as_str"
   ],
   "note": "Append theorems exclude only Vec's capacity-overflow panic; encode_to_string panics iff 2n > usize::MAX/2, as asserted in the code."
  },
  {
   "property": "C38",
   "status": "proved",
   "theorems": [
    "Simd.Uuid.C38_parse_simple",
    "Simd.Uuid.C38_parse_simple_err",
    "Simd.Uuid.C38_parse_hyphenated",
    "Simd.Uuid.C38_parse_hyphenated_err",
    "Simd.Uuid.C38_hyphenated_shape",
    "Simd.Uuid.targets_ok"
   ],
   "note": "The hyphenated functions are quantified over every implementation in their dispatch list (targets_ok); SSE2 and SSSE3 alone are never dispatched to."
  },
  {
   "property": "C39",
   "status": "proved",
   "theorems": [
    "Simd.Uuid.C39_parse",
    "Simd.Uuid.C39_parse_err"
   ],
   "note": "The hyphenated functions are quantified over every implementation in their dispatch list (targets_ok); SSE2 and SSSE3 alone are never dispatched to."
  },
  {
   "property": "C40",
   "status": "proved",
   "theorems": [
    "Simd.Uuid.C40_format_simple",
    "Simd.Uuid.C40_format_hyphenated"
   ],
   "note": "The hyphenated functions are quantified over every implementation in their dispatch list (targets_ok); SSE2 and SSSE3 alone are never dispatched to."
  },
  {
   "property": "C41",
   "status": "proved",
   "theorems": [
    "Simd.Uuid.C41_round_trip"
   ],
   "note": "The hyphenated functions are quantified over every implementation in their dispatch list (targets_ok); SSE2 and SSSE3 alone are never dispatched to."
  },
  {
   "property": "C42",
   "status": "proved",
   "theorems": [
    "Simd.Uuid.C42_parse",
    "Simd.Uuid.C42_format"
   ],
   "note": "The hyphenated functions are quantified over every implementation in their dispatch list (targets_ok); SSE2 and SSSE3 alone are never dispatched to."
  },
  {
   "property": "C43",
   "status": "proved",
   "theorems": [
    "Simd.Unicode.C43_is_ascii",
    "Simd.Unicode.C43_from_ascii"
   ],
   "note": "All seven instruction sets, the fallback, and the special x86-64 SSE2 path."
  },
  {
   "property": "C44",
   "status": "proved",
   "theorems": [
    "Simd.Unicode.C44_is_utf32le",
    "Simd.Unicode.utf32_targets_ok"
   ],
   "note": "Every implementation in the dispatch list (utf32_targets_ok); SSE2 and SSSE3 alone are never dispatched to."
  },
  {
   "property": "C45",
   "status": "proved",
   "theorems": [
    "Simd.Unicode.C45_utf16",
    "Simd.Unicode.C45_utf32",
    "Simd.Unicode.C45_utf16_inplace",
    "Simd.Unicode.C45_utf32_inplace",
    "Simd.Unicode.C45_involution16",
    "Simd.Unicode.C45_involution32",
    "Simd.Unicode.C45_short_dst"
   ],
   "note": "For every implementation that works; see C46 for the dispatch target that does not."
  },
  {
   "property": "C46",
   "status": "partial",
   "theorems": [
    "Simd.Unicode.C46_returns_partial",
    "Simd.Unicode.C46_panics",
    "Simd.Unicode.C46_violated"
   ],
   "note": "The property is false for the code: with the SSSE3 target every slice of at least 16 u16 or 8 u32 elements panics (C46_panics for all such slices, C46_violated a witness). C46_returns_partial proves it for all other targets and for short slices."
  },
  {
   "property": "C47",
   "status": "proved",
   "theorems": [
    "Simd.Dispatch.C47_same",
    "Simd.Dispatch.C47_supported",
    "Simd.Dispatch.C47_best",
    "Simd.Dispatch.C47_progress",
    "Simd.Dispatch.C47_terminates"
   ],
   "note": "Any number of threads and calls, any interleaving; a load may return any value ever stored, which includes everything relaxed atomics allow. C47_supported assumes that x86 feature levels include each other and that the CPU has the features the program was compiled for."
  },
  {
   "property": "C48",
   "status": "partial",
   "theorems": [
    "Simd.Dispatch.C48_base64",
    "Simd.Dispatch.C48_base32",
    "Simd.Dispatch.C48_hex",
    "Simd.Dispatch.C48_uuid",
    "Simd.Dispatch.C48_unicode_checks",
    "Simd.Dispatch.C48_swap_partial",
    "Simd.Dispatch.C48_swap_exact",
    "Simd.Dispatch.C48_violated"
   ],
   "note": "Proved for every public function except the endianness swaps, where it is false: C48_swap_exact shows that with run-time detection on x86 long swaps panic exactly on CPUs with SSSE3 but without AVX2, C48_violated is a witness."
  },
  {
   "property": "C49",
   "status": "proved",
   "theorems": [
    "Simd.Vs.C49_check",
    "Simd.Vs.C49_decode",
    "Simd.Vs.C49_context"
   ],
   "note": "All five tables, both vector widths, every instruction set with a byte shuffle (all but SSE2, which the code never uses with these tables)."
  },
  {
   "property": "C50",
   "status": "proved",
   "theorems": [
    "Simd.Uuid.C50_ext_parse",
    "Simd.Uuid.C50_ext_format",
    "Simd.Uuid.C50_ext_parse_any",
    "Simd.Uuid.C50_ext_parse_simple_any",
    "Simd.Uuid.C50_ext_parse_hyphenated_any",
    "Simd.Uuid.C50_ext_format_any"
   ],
   "note": ""
  },
  {
   "property": "C51",
   "status": "proved",
   "theorems": [
    "Simd.Vsimd.C51_binary128",
    "Simd.Vsimd.C51_binary256",
    "Simd.Vsimd.C51_agree128",
    "Simd.Vsimd.C51_agree256",
    "Simd.Vsimd.C51_methods128",
    "Simd.Vsimd.C51_methods256",
    "Simd.Vsimd.C51_splat128",
    "Simd.Vsimd.C51_splat256",
    "Simd.Vsimd.C51_splat_methods",
    "Simd.Vsimd.C51_i16_mul_lo",
    "Simd.Vsimd.C51_i32_mul_lo",
    "Simd.Vsimd.C51_mul_hi",
    "Simd.Vsimd.C51_avgr",
    "Simd.Vsimd.C51_shift16",
    "Simd.Vsimd.C51_shift32",
    "Simd.Vsimd.C51_bitwise",
    "Simd.Vsimd.C51_not",
    "Simd.Vsimd.C51_bsl",
    "Simd.Vsimd.C51_madd",
    "Simd.Vsimd.C51_maddubs",
    "Simd.Vsimd.C51_packus",
    "Simd.Vsimd.C51_widen"
   ],
   "note": "Integer elements; the f32/f64 branches of max and min are not modelled (no trait method selects them). Intrinsics have the lane semantics of Model/Vec.lean and Model/Unified.lean, which are trusted."
  },
  {
   "property": "C52",
   "status": "proved",
   "theorems": [
    "Simd.Vsimd.C52_zip128",
    "Simd.Vsimd.C52_zip256",
    "Simd.Vsimd.C52_zip_branches",
    "Simd.Vsimd.C52_unzip128",
    "Simd.Vsimd.C52_unzip_branch",
    "Simd.Vsimd.C52_unzip256",
    "Simd.Vsimd.C52_unzip64",
    "Simd.Vsimd.C52_unzip_u8x8",
    "Simd.Vsimd.C52_bswap128",
    "Simd.Vsimd.C52_bswap256",
    "Simd.Vsimd.C52_swizzle128",
    "Simd.Vsimd.C52_swizzle256",
    "Simd.Vsimd.C52_swizzle32",
    "Simd.Vsimd.C52_blend16",
    "Simd.Vsimd.C52_blend32",
    "Simd.Vsimd.C52_blendv128",
    "Simd.Vsimd.C52_blendv256",
    "Simd.Vsimd.C52_permute64",
    "Simd.Vsimd.C52_zip_halves"
   ],
   "note": ""
  },
  {
   "property": "C53",
   "status": "proved",
   "theorems": [
    "Simd.Vsimd.C53_bitmask128",
    "Simd.Vsimd.C53_bitmask256",
    "Simd.Vsimd.C53_any_zero128",
    "Simd.Vsimd.C53_any_zero256",
    "Simd.Vsimd.C53_all_zero",
    "Simd.Vsimd.C53_reduce128",
    "Simd.Vsimd.C53_reduce256",
    "Simd.Vsimd.C53_mask128",
    "Simd.Vsimd.C53_mask256",
    "Simd.Vsimd.C53_cmp_mask",
    "Simd.Vsimd.C53_highbit128",
    "Simd.Vsimd.C53_highbit256"
   ],
   "note": "v128_all_zero on SSE2/SSSE3 is not implemented by the code; its availability is C54."
  },
  {
   "property": "C54",
   "status": "proved",
   "theorems": [
    "Simd.Vsimd.C54_documented",
    "Simd.Vsimd.C54_double",
    "Simd.Vsimd.C54_avx2",
    "Simd.Vsimd.C54_safe",
    "Simd.Vsimd.C54_generic128",
    "Simd.Vsimd.C54_generic256",
    "Simd.Vsimd.C54_splat"
   ],
   "note": "Loads and stores are covered by the load/store model, not by this table."
  },
  {
   "property": "C55",
   "status": "proved",
   "theorems": [
    "Simd.Vsimd.C55_lower",
    "Simd.Vsimd.C55_upper"
   ],
   "note": ""
  },
  {
   "property": "C56",
   "status": "proved",
   "theorems": [
    "Simd.Vsimd.C56_max_min",
    "Simd.Vsimd.C56_bitmask",
    "Simd.Vsimd.C56_shift",
    "Simd.Vsimd.C56_packus"
   ],
   "note": "Little-endian layout of the transmute, as on all supported targets."
  },
  {
   "property": "C57",
   "status": "proved",
   "theorems": [
    "Simd.Native.C57_exec",
    "Simd.Native.C57_supported",
    "Simd.Native.C57_isa_detect"
   ],
   "note": "C57_supported assumes the CPU has the features the program was compiled for."
  },
  {
   "property": "C58",
   "status": "proved",
   "theorems": [
    "Simd.Hex.C58_check_raw",
    "Simd.Hex.C58_encode_raw",
    "Simd.Hex.C58_decode_raw_ok",
    "Simd.Hex.C58_decode_raw_err"
   ],
   "note": "Conditions and effects are stated cell by cell (Spec/Raw.lean). encode_raw assumes 2*len fits usize, which holds for any allocated destination."
  },
  {
   "property": "C59",
   "status": "proved",
   "theorems": [
    "Simd.Base64.C59_encode",
    "Simd.Base64.C59_encode_short",
    "Simd.Base64.C59_decode",
    "Simd.Base64.C59_decode_err",
    "Simd.Base64.C59_inplace",
    "Simd.Base64.C59_check",
    "Simd.Base64.C59_forgiving",
    "Simd.Base64.C59_forgiving_inplace",
    "Simd.Base32.C59_encode",
    "Simd.Base32.C59_encode_short",
    "Simd.Base32.C59_decode",
    "Simd.Base32.C59_decode_err",
    "Simd.Base32.C59_inplace",
    "Simd.Base32.C59_check",
    "Simd.Hex.C59_encode",
    "Simd.Hex.C59_decode",
    "Simd.Hex.C59_inplace"
   ],
   "note": "Stated with Spec/Raw.lean, cell by cell. Cells next to the slices are arbitrary, also uninitialised, so reading one of them would be undefined behaviour in some memory covered by the theorem. check of hex-simd is C58_check_raw: the safe function makes the same call. Functions that allocate their result are covered by C11, C13, C14, C28 with the source as a whole allocation."
  },
  {
   "property": "C60",
   "status": "proved",
   "theorems": [
    "Simd.Uuid.C60_parse",
    "Simd.Uuid.C60_parse_simple",
    "Simd.Uuid.C60_parse_hyphenated",
    "Simd.Uuid.C60_format_simple",
    "Simd.Uuid.C60_format_hyphenated",
    "Simd.Unicode.C60_is_ascii",
    "Simd.Unicode.C60_from_ascii",
    "Simd.Unicode.C60_is_utf32le",
    "Simd.Unicode.C60_utf16",
    "Simd.Unicode.C60_utf32",
    "Simd.Unicode.C60_utf16_inplace",
    "Simd.Unicode.C60_utf32_inplace"
   ],
   "note": "Stated with Spec/Raw.lean, cell by cell, as C58 and C59. The swaps are restricted by SwapImpl (not SSSE3 on long slices) because they panic there (C46). Alignment of u16 and u32 slices is not modelled; the code uses unaligned loads in the vector loops."
  },
  {
   "property": "C61",
   "status": "proved",
   "theorems": [
    "Simd.Base64.C61_encode_owned",
    "Simd.Base64.C61_decode_owned",
    "Simd.Base64.C61_encode_append",
    "Simd.Base64.C61_decode_append",
    "Simd.Base64.C61_forgiving",
    "Simd.Base64.C61_decode_append_any",
    "Simd.Base64.C61_forgiving_any",
    "Simd.Base32.C61_decode_append_any",
    "Simd.Hex.C61_decode_append_any",
    "Simd.Base32.C61_encode_owned",
    "Simd.Base32.C61_decode_owned",
    "Simd.Base32.C61_encode_append",
    "Simd.Base32.C61_decode_append",
    "Simd.Hex.C61_encode_owned",
    "Simd.Hex.C61_decode_owned",
    "Simd.Hex.C61_encode_append",
    "Simd.Hex.C61_decode_append"
   ],
   "note": "Stated with Spec/Raw.lean (Kept, KeptBut, NewBox, NewVec, IsVec). The old allocation of a grown vector is not freed in the model. decode_append excludes the capacity overflow panic of Vec::reserve_exact by a hypothesis on the source length."
  },
  {
   "property": "C62",
   "status": "proved",
   "theorems": [
    "Simd.Base64.C62_par_encode",
    "Simd.Base64.C62_terminates",
    "Simd.Base64.C62_short"
   ],
   "note": "Extends C15 from separate allocations to any layout. The panic on a short destination in the parallel path contradicts the documentation (C16); C62_short states exactly when it happens. Every task uses the same implementation; Rayon itself is modelled as arbitrary interleaving of single loads and stores."
  },
  {
   "property": "C63",
   "status": "proved",
   "theorems": [
    "Simd.C63_trace_stores",
    "Simd.C63_trace_loads",
    "Simd.Base64.C63_encode",
    "Simd.Base64.C63_decode",
    "Simd.Base64.C63_decode_err",
    "Simd.Base64.C63_inplace",
    "Simd.Base64.C63_check",
    "Simd.Base64.C63_forgiving",
    "Simd.Base64.C63_forgiving_inplace",
    "Simd.Base32.C63_encode",
    "Simd.Base32.C63_decode",
    "Simd.Base32.C63_decode_err",
    "Simd.Base32.C63_inplace",
    "Simd.Base32.C63_check",
    "Simd.Hex.C63_encode",
    "Simd.Hex.C63_decode",
    "Simd.Hex.C63_inplace",
    "Simd.Hex.C63_check",
    "Simd.Hex.C63_encode_raw",
    "Simd.Hex.C63_decode_raw",
    "Simd.Uuid.C63_parse",
    "Simd.Uuid.C63_parse_simple",
    "Simd.Uuid.C63_parse_hyphenated",
    "Simd.Uuid.C63_format_simple",
    "Simd.Uuid.C63_format_hyphenated",
    "Simd.Unicode.C63_is_ascii",
    "Simd.Unicode.C63_is_utf32le",
    "Simd.Unicode.C63_utf16",
    "Simd.Unicode.C63_utf32",
    "Simd.Unicode.C63_utf16_inplace",
    "Simd.Unicode.C63_utf32_inplace"
   ],
   "note": "The other memory theorems compare memory before and after a run; this one is about the accesses themselves, including stores that leave the value as it was and loads whose value is not used. The byte swapping theorems exclude the target features for which the code panics (C46)."
  },
  {
   "property": "C64",
   "status": "proved",
   "theorems": [
    "Simd.Hex.C64_encode",
    "Simd.Base32.C64_encode",
    "Simd.Base32.C64_padded",
    "Simd.Base32.C64_standard",
    "Simd.Base64.C64_not_ordered",
    "Simd.Uuid.C64_format"
   ],
   "note": "The negative parts are proved with concrete data for every implementation; they are properties of the formats, not defects."
  },
  {
   "property": "C65",
   "status": "proved",
   "theorems": [
    "Simd.Base64.C65_encode",
    "Simd.Base64.C65_decode",
    "Simd.Base64.C65_decode_err",
    "Simd.Base64.C65_padded",
    "Simd.Base32.C65_encode",
    "Simd.Base32.C65_decode",
    "Simd.Base32.C65_decode_err",
    "Simd.Hex.C65_encode",
    "Simd.Hex.C65_decode"
   ],
   "note": "The loop over the pieces (Spec.inChunks) is the client, not code of the repository; every call in it is the modelled function."
  },
  {
   "property": "C66",
   "status": "proved",
   "theorems": [
    "Simd.Base64.C66_marks",
    "Simd.Base64.C66_encode",
    "Simd.Base64.C66_decode",
    "Simd.Base64.C66_decode_valid",
    "Simd.Base64.C66_inplace",
    "Simd.Base64.C66_check",
    "Simd.Base32.C66_marks",
    "Simd.Base32.C66_encode",
    "Simd.Base32.C66_decode",
    "Simd.Base32.C66_decode_valid",
    "Simd.Base32.C66_inplace",
    "Simd.Base32.C66_check",
    "Simd.Hex.C66_encode",
    "Simd.Hex.C66_decode",
    "Simd.Hex.C66_inplace",
    "Simd.Hex.C66_check",
    "Simd.Uuid.C66_format_simple",
    "Simd.Uuid.C66_format_hyphenated",
    "Simd.Uuid.C66_parse",
    "Simd.Uuid.C66_parse_simple",
    "Simd.Uuid.C66_parse_hyphenated",
    "Simd.Unicode.C66_is_ascii",
    "Simd.Unicode.C66_is_ascii_sse2_depends",
    "Simd.Unicode.C66_is_utf32le",
    "Simd.Unicode.C66_utf16",
    "Simd.Unicode.C66_utf32"
   ],
   "note": "Look-ups in static tables and instruction timing are not part of the trace, so this is not a constant-time claim. forgiving_decode is excluded: the places of white space decide what it copies."
  },
  {
   "property": "C67",
   "status": "proved",
   "theorems": [
    "Simd.Unicode.C67_is_utf32le",
    "Simd.Unicode.C67_swap",
    "Simd.Unicode.C67_swap_inplace"
   ],
   "note": "All other typed reads and writes of the crates are of bytes or byte arrays (alignment 1) or use read_unaligned/write_unaligned."
  },
  {
   "property": "C68",
   "status": "proved",
   "theorems": [
    "Simd.Base32.C68_encode",
    "Simd.Base32.C68_encode_same",
    "Simd.Base32.C68_decode_ok",
    "Simd.Base32.C68_decode_err",
    "Simd.Base32.C68_inplace_ok",
    "Simd.Base32.C68_inplace_err",
    "Simd.Base64.C68_decode_ok",
    "Simd.Base64.C68_decode_err",
    "Simd.Base64.C68_inplace_ok",
    "Simd.Base64.C68_inplace_err",
    "Simd.Unicode.C68_utf16",
    "Simd.Unicode.C68_utf32",
    "Simd.Unicode.C68_utf16_inplace",
    "Simd.Unicode.C68_utf32_inplace"
   ],
   "note": "Model/Endian.lean writes the native accesses and to_be/swap_bytes out; the proofs show that the programs have the same runs as the fallback of the main model. The other fallback functions access bytes and byte arrays only (u64::from_be_bytes of an array does not depend on the byte order)."
  },
  {
   "property": "C69",
   "status": "proved",
   "theorems": [
    "Simd.Unicode.C69_values",
    "Simd.Unicode.C69_little",
    "Simd.Unicode.C69_big",
    "Simd.Unicode.C69_big_differs"
   ],
   "note": "The name promises UTF-32LE, the documentation promises nothing; DESIGN.md, finding C."
  },
  {
   "property": "C70",
   "status": "proved",
   "theorems": [
    "Simd.Vs.C70_tables",
    "Simd.Vs.C70_tests",
    "Simd.Vs.C70_check",
    "Simd.Vs.C70_decode",
    "Simd.Vs.C70_vector"
   ],
   "note": "C70_vector is for 32-byte vectors; C49 has both widths. The tests run over all 256 bytes, so evaluating them in the kernel is a proof for all bytes."
  },
  {
   "property": "C71",
   "status": "proved",
   "theorems": [
    "Simd.Base64.C71_url",
    "Simd.Base64.C71_pad",
    "Simd.Base32.C71_base32_hex",
    "Simd.Base32.C71_base32_pad",
    "Simd.Hex.C71_hex_case",
    "Simd.Uuid.C71_uuid"
   ],
   "note": "Each theorem gives both runs and the relation between the two returned texts."
  },
  {
   "property": "C72",
   "status": "proved",
   "theorems": [
    "Simd.Base64.C72_strict",
    "Simd.Base64.C72_whitespace",
    "Simd.Base64.C72_reject"
   ],
   "note": "The converse of C72_strict does not hold, an example beside it shows it."
  },
  {
   "property": "C73",
   "status": "proved",
   "theorems": [
    "Simd.Vsimd.C73_128",
    "Simd.Vsimd.C73_256",
    "Simd.Vsimd.C73_panics"
   ],
   "note": ""
  },
  {
   "property": "C74",
   "status": "proved",
   "theorems": [
    "Simd.Base64.C74_encode",
    "Simd.Base64.C74_decode",
    "Simd.Base64.C74_inplace",
    "Simd.Base64.C74_check",
    "Simd.Base64.C74_forgiving",
    "Simd.Base64.C74_forgiving_inplace",
    "Simd.Base32.C74_encode",
    "Simd.Base32.C74_decode",
    "Simd.Base32.C74_inplace",
    "Simd.Base32.C74_check",
    "Simd.Hex.C74_encode",
    "Simd.Hex.C74_decode",
    "Simd.Hex.C74_inplace",
    "Simd.Hex.C74_check",
    "Simd.Uuid.C74_parse",
    "Simd.Uuid.C74_parse_simple",
    "Simd.Uuid.C74_parse_hyphenated",
    "Simd.Uuid.C74_format_simple",
    "Simd.Uuid.C74_format_hyphenated",
    "Simd.Uuid.C74_ext_parse",
    "Simd.Uuid.C74_ext_format",
    "Simd.Unicode.C74_is_ascii",
    "Simd.Unicode.C74_is_utf32le",
    "Simd.Unicode.C74_utf16",
    "Simd.Unicode.C74_utf32",
    "Simd.Unicode.C74_swap_inplace"
   ],
   "note": "Counts what the model counts as memory: accesses to slices. Lookups in constant tables and arithmetic on registers are not counted; their number is bounded by the accesses, since every loop iteration accesses memory. Functions returning owned values are not included, the model's initialisation checks would be counted as accesses."
  },
  {
   "property": "C75",
   "status": "proved",
   "theorems": [
    "Simd.C75_appends",
    "Simd.C75_string"
   ],
   "note": "The client is not part of the crates. The sources lie outside the vector, as the borrow checker requires. What must fit is the sum of the texts (when encoding) or of the source lengths (when decoding) and the over-allocations."
  },
  {
   "property": "C76",
   "status": "proved",
   "theorems": [
    "Simd.C76_base64",
    "Simd.C76_base32",
    "Simd.C76_hex",
    "Simd.C76_uuid"
   ],
   "note": "The byte order of the scalar code is the subject of C69 and not a parameter here."
  },
  {
   "property": "C77",
   "status": "proved",
   "theorems": [
    "Simd.Base64.C77_encode_type",
    "Simd.Base64.C77_decode_type",
    "Simd.Base32.C77_encode_type",
    "Simd.Base32.C77_decode_type",
    "Simd.Hex.C77_encode_type",
    "Simd.Hex.C77_decode_type"
   ],
   "note": ""
  },
  {
   "property": "C78",
   "status": "proved",
   "theorems": [
    "Simd.C78_isolated",
    "Simd.C78_calls",
    "Simd.C78_encode"
   ],
   "note": "Allocating functions are in C79. Accesses are sequentially consistent, which is sound for race-free programs, and race freedom is part of the theorem. The dispatcher's own shared state is C47."
  },
  {
   "property": "C79",
   "status": "proved",
   "theorems": [
    "Simd.C79_calls",
    "Simd.C79_encode_to_string",
    "Simd.C79_encode_append"
   ],
   "note": "The allocator is modelled as handing out fresh allocations atomically and never reusing one; the old allocation of a vector that moves is not freed. Accesses are sequentially consistent, which is sound for race-free programs, and race freedom is part of the theorem. The dispatcher's own shared state is C47."
  },
  {
   "property": "C80",
   "status": "proved",
   "theorems": [
    "Simd.Uuid.C80_format",
    "Simd.Uuid.C80_round_trip",
    "Simd.C80_error",
    "Simd.C80_padded_unique",
    "Simd.C80_padded_plain"
   ],
   "note": "core::fmt (Formatter::pad, str Debug, to_string) is modelled in Model/Fmt.lean from its documentation and belongs to the trusted base."
  },
  {
   "property": "C81",
   "status": "proved",
   "theorems": [
    "Simd.C81_threads",
    "Simd.C81_round_trip",
    "Simd.C81_either"
   ],
   "note": "Calls that allocate are not among those a thread makes here (C79 has one such call per thread). The endianness swaps are used as in C78, without the case of finding A. Accesses are sequentially consistent, which is sound for race-free programs, and race freedom is part of the theorem."
  },
  {
   "property": "C82",
   "status": "proved",
   "theorems": [
    "Simd.C82_slices",
    "Simd.Base64.C82_encode",
    "Simd.Base64.C82_decode",
    "Simd.Base64.C82_encode_append",
    "Simd.Base64.C82_decode_append",
    "Simd.Base64.C82_forgiving",
    "Simd.Base32.C82_encode",
    "Simd.Base32.C82_decode",
    "Simd.Base32.C82_encode_append",
    "Simd.Base32.C82_decode_append",
    "Simd.Hex.C82_encode",
    "Simd.Hex.C82_decode",
    "Simd.Hex.C82_encode_append",
    "Simd.Hex.C82_decode_append",
    "Simd.C82_any"
   ],
   "note": "Prog.allocs lists the sizes of the allocations of a run. The Vec functions of the standard library are modelled (Vec::reserve_exact and Vec::with_capacity with any extra capacity); that conversions between Box, Vec and String keep the allocation is part of the model. Allocations by rayon or by one-time CPU detection are not modelled."
  },
  {
   "property": "C83",
   "status": "proved",
   "theorems": [
    "Simd.C83_slices",
    "Simd.C83_heap",
    "Simd.C83_never",
    "Simd.C83_any"
   ],
   "note": "par_encode is not a Call; when it panics is C16. A failed allocation of a size that a vector may have aborts in Rust and is not modelled; a capacity overflow is a panic."
  },
  {
   "property": "C84",
   "status": "proved",
   "theorems": [
    "Simd.Tools.C84_unroll",
    "Simd.Tools.C84_unroll_records",
    "Simd.Tools.C84_align",
    "Simd.Tools.C84_print_fn_table",
    "Simd.Tools.C84_vectors"
   ],
   "note": "pod::align only calls <[T]>::align_to, whose algorithm in the standard library is what is modelled. to_u64 is for little-endian targets."
  },
  {
   "property": "C85",
   "status": "proved",
   "theorems": [
    "Simd.C85_call",
    "Simd.C85_again",
    "Simd.C85_many"
   ],
   "note": "Stacked Borrows as in Miri, with retags of function arguments, protectors and two kinds of raw pointers. Out (crate outref, not in the repository) is taken to hold a raw pointer. For the byte swaps only the implementations and lengths that do not panic for the reason of C46 (SSSE3) are covered."
  },
  {
   "property": "C86",
   "status": "proved",
   "theorems": [
    "Simd.Dispatch.C86_implementations",
    "Simd.Dispatch.C86_complete",
    "Simd.Dispatch.C86_lists",
    "Simd.Dispatch.C86_static"
   ],
   "note": "The table of implementations is stated in Props/Targets.lean; both inclusions are proved, the reachable side by exhibiting a machine for every entry."
  },
  {
   "property": "C87",
   "status": "proved",
   "theorems": [
    "Simd.C87_call",
    "Simd.C87_drop",
    "Simd.C87_again"
   ],
   "note": "Stacked Borrows with deallocation. Box is retagged like &mut when passed and when made from a raw pointer; Vec holds a raw pointer. What happens to memory when a panic unwinds is not modelled."
  },
  {
   "property": "C88",
   "status": "proved",
   "theorems": [
    "Simd.C88_slices",
    "Simd.C88_heap",
    "Simd.C88_par_encode",
    "Simd.C88_caught"
   ],
   "note": "catch_unwind (Model/Unwind.lean) turns a panic into a value and keeps the memory; Prog.run forgets it. Together with C83, which says exactly when calls panic."
  },
  {
   "property": "C89",
   "status": "proved",
   "theorems": [
    "Simd.C89_sound",
    "Simd.C89_valid",
    "Simd.C89_no_leak",
    "Simd.C89_others",
    "Simd.C89_goes_on"
   ],
   "note": "Client model in Model/Client.lean, what safe Rust accepts in Spec/Client.lean. Simplified: slices are lent directly from the owners' pointers, slices that calls return are not kept by the client across steps, the program does nothing after a panic (C88 says what it finds if it catches it), one thread (C78, C80 for several), no par_encode. The byte swaps are called only with implementations for which they do not panic because of finding A."
  },
  {
   "property": "C90",
   "status": "proved",
   "theorems": [
    "Simd.C90_call",
    "Simd.C90_portable",
    "Simd.C90_step",
    "Simd.C90_program",
    "Simd.C90_determined",
    "Simd.C90_same",
    "Simd.C90_goes_on"
   ],
   "note": "The meanings are in Spec/CallMeans.lean and Spec/Means.lean, programs without memory in Spec/Store.lean. Same simplifications of clients as in C89; the byte swaps are called only with implementations for which they do not panic because of finding A."
  },
  {
   "property": "C91",
   "status": "proved",
   "theorems": [
    "Simd.C91_par_encode",
    "Simd.C91_terminates"
   ],
   "note": "The threads are in Model/BorrowPar.lean. Rayon is not in the repository; its jobs are modelled as dividing with split_at/split_at_mut at any chunk boundary, or working through the chunks one by one. Protection by the jobs' calls lasts until the section ends, so the model has more undefined behaviour than Rust."
  },
  {
   "property": "C92",
   "status": "proved",
   "theorems": [
    "Simd.C92_sound",
    "Simd.C92_goes_on",
    "Simd.C92_valid",
    "Simd.C92_frozen",
    "Simd.C92_unique",
    "Simd.C92_call",
    "Simd.C92_par",
    "Simd.C92_ext",
    "Simd.C92_no_leak"
   ],
   "note": "The language is in Model/Lend.lean, the borrow checker in Spec/Lend.lean: it goes by bytes and by the order in which references were made, so it accepts more programs than the compiler does. The program itself has one thread; it does nothing after a panic; references are to bytes (u16 and u32 slices as their bytes). What a function of ext.rs returns is seen by the program but not put into a variable."
  },
  {
   "property": "C93",
   "status": "proved",
   "theorems": [
    "Simd.Tree.C93_call",
    "Simd.Tree.C93_again",
    "Simd.Tree.C93_many"
   ],
   "note": "The rules are in Model/TreeBorrows.lean: permissions reserved (conflicted or not), active, frozen and disabled for each byte and tag, protectors, and the implicit access when a protector ends. Two-phase borrows and interior mutability are not modelled; the allocating functions are C94, and par_encode is C96."
  },
  {
   "property": "C94",
   "status": "proved",
   "theorems": [
    "Simd.Tree.C94_call",
    "Simd.Tree.C94_drop",
    "Simd.Tree.C94_again"
   ],
   "note": "Model/TreeHeap.lean repeats Model/BorrowHeap.lean with the rules of Tree Borrows. Deallocation needs an unprotected tree, as in Tree Borrows as published; allocation failure and the state after a panic are not modelled."
  },
  {
   "property": "C95",
   "status": "proved",
   "theorems": [
    "Simd.Tree.C95_sound",
    "Simd.Tree.C95_goes_on",
    "Simd.Tree.C95_valid",
    "Simd.Tree.C95_frozen",
    "Simd.Tree.C95_unique",
    "Simd.Tree.C95_call",
    "Simd.Tree.C95_par",
    "Simd.Tree.C95_ext",
    "Simd.Tree.C95_no_leak"
   ],
   "note": "The language and the borrow checker are those of C92, repeated in Model/TreeUse.lean and Spec/TreeUse.lean. The program itself has one thread; it does nothing after a panic; references are to bytes (u16 and u32 slices as their bytes). What a function of ext.rs returns is seen by the program but not put into a variable."
  },
  {
   "property": "C96",
   "status": "proved",
   "theorems": [
    "Simd.Tree.C96_par_encode",
    "Simd.Tree.C96_terminates"
   ],
   "note": "The threads are in Model/TreePar.lean. Rayon is not in the repository; its jobs are modelled as in C91, but the arguments of a job's calls are protected exactly until the call returns."
  },
  {
   "property": "C97",
   "status": "proved",
   "theorems": [
    "Simd.Tree.C97_call",
    "Simd.Tree.C97_again"
   ],
   "note": "The local variable is an allocation that is deallocated at the end of its scope. What the formatter does with the text, other than reading it, is not in the repository."
  },
  {
   "property": "C98",
   "status": "proved",
   "theorems": [
    "Simd.C98_call",
    "Simd.C98_again"
   ],
   "note": "The local variable is an allocation that is deallocated at the end of its scope. What the formatter does with the text, other than reading it, is not in the repository."
  },
  {
   "property": "C99",
   "status": "proved",
   "theorems": [
    "Simd.C99_step",
    "Simd.C99_refines",
    "Simd.C99_deterministic",
    "Simd.C99_panic"
   ],
   "note": "Programs are those of C92. Over plain memory, nothing is deallocated and allocations are numbered in order, so that addresses play no role. Both executions are assumed to take only steps that safe Rust allows. The result of a function of `ext.rs` is seen by the program but not put into a variable."
  },
  {
   "property": "C100",
   "status": "proved",
   "theorems": [
    "Simd.C100_step",
    "Simd.C100_refines",
    "Simd.C100_same",
    "Simd.C100_agree",
    "Simd.C100_deterministic",
    "Simd.C100_steps"
   ],
   "note": "Programs are those of C92 and C95. Over plain memory, nothing is deallocated and allocations are numbered in order. What safe Rust allows is defined for each of the two sets of rules by the checks of the borrow checker, on the references as they are there; that the two definitions allow the same is proved, not assumed."
  },
  {
   "property": "C101",
   "status": "proved",
   "theorems": [
    "Simd.C101_step",
    "Simd.C101_same",
    "Simd.C101_variables",
    "Simd.C101_references",
    "Simd.C101_needs_exact"
   ],
   "note": "What safe Rust allows may differ between machines (capacities, lengths up to `isize::MAX`); the runs compared are those that both machines allow. Addresses and capacities are not compared; the program cannot see them in the modelled steps. Panics can differ between machines (C46, C48, C16), so both runs are without panics. Decoding steps that leave unspecified bytes are excluded by a hypothesis on the step (`Exact`), for the bytes left behind do differ between implementations: `C101_needs_exact` shows this for `hex_simd::decode` with AVX2 and with SSE2."
  },
  {
   "property": "C102",
   "status": "proved",
   "theorems": [
    "Simd.C102_mixed",
    "Simd.C102_trees",
    "Simd.C102_runs"
   ],
   "note": "Follows from C101 by the correspondence of steps in C99 and C100. Addresses and capacities are not compared."
  }
 ]
}