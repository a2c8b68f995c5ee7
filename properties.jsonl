{"id": "C01", "title": "base64 encode equals RFC 4648", "statement": "For each of the four public base64 variants, `encode(src, dst)` with a large enough dst writes and returns exactly the RFC 4648 base64 text of src: 6-bit groups of the big-endian bit string of src (zero-filled at the end) mapped through the variant's alphabet, followed by '=' up to a multiple of four characters when the variant pads.", "quantifier": "every byte string src of any length, every variant, every dispatchable instruction set and the scalar fallback", "why_tests_cant": "The input length is unbounded and each block path (scalar, 16-byte, 32-byte, overlapping head/tail) is entered at different lengths; a test sees finitely many lengths and contents on the one instruction set of the test machine.", "anchors": ["crates/base64-simd/src/lib.rs: Base64::encode", "crates/base64-simd/src/encode.rs: encode_fallback, encode_simd, encode_bits24, encode_bits48, encode_extra, split_bits_x1, split_bits_x2, encode_values", "crates/base64-simd/src/multiversion.rs: encode"]}
{"id": "C02", "title": "base64 encode buffer contract", "statement": "`encode` returns Err iff dst is shorter than encoded_length(src.len()); on Err dst is untouched; on Ok the returned slice is dst[..m] with m = encoded_length, it is completely initialised, and every byte of dst from index m on keeps its previous (possibly uninitialised) content.", "quantifier": "every src, every dst length and prior content, every variant, every instruction set", "why_tests_cant": "SIMD stores are wider than the data they carry; whether a store ever spills past m depends on the length residue and on the path taken, for all lengths.", "anchors": ["crates/base64-simd/src/lib.rs: Base64::encode", "crates/base64-simd/src/encode.rs: encoded_length_unchecked, encode_simd"]}
{"id": "C03", "title": "base64 round trip", "statement": "Decoding with a variant the text that the same variant's encode produced returns Ok with exactly the original bytes.", "quantifier": "every byte string, every variant, every pair of instruction sets used for the two directions", "why_tests_cant": "The input length is unbounded and each block path (scalar, 16-byte, 32-byte, overlapping head/tail) is entered at different lengths; a test sees finitely many lengths and contents on the one instruction set of the test machine.", "anchors": ["crates/base64-simd/src/lib.rs: Base64::encode, Base64::decode"]}
{"id": "C04", "title": "base64 decode is strict and canonical", "statement": "decode returns Ok(b) iff the input text is exactly what encode(b) produces for that variant: no wrong-alphabet character, no missing/misplaced/surplus padding and no non-zero trailing bits is ever accepted, hence two different texts never decode to the same bytes.", "quantifier": "every text (any bytes, any length) and every byte string b, every variant, every instruction set", "why_tests_cant": "The set of invalid texts is infinite; a vector classifier can be right on each tested byte yet wrong for a byte next to particular neighbours.", "anchors": ["crates/base64-simd/src/decode.rs: decoded_length, decode_fallback, decode_simd, decode_extra, decode_ascii4, decode_ascii8, decode_ascii32", "crates/vsimd/src/alsw.rs: check_ascii_xn, decode_ascii_xn"]}
{"id": "C05", "title": "base64 decode buffer contract", "statement": "decode into dst: if the text is valid it fails only when dst is shorter than the decoded length m; on Ok the result is dst[..m]; whether Ok or Err, bytes of dst at index >= m are never modified and never read.", "quantifier": "every text, every dst length and prior content, every variant, every instruction set", "why_tests_cant": "Stores write 8 or 16 bytes for 6 or 12 bytes of data; over-write past m would only show for particular lengths and an observer behind the slice.", "anchors": ["crates/base64-simd/src/lib.rs: Base64::decode", "crates/base64-simd/src/decode.rs: decode_simd, decode_fallback"]}
{"id": "C06", "title": "base64 in-place decode equals copy decode", "statement": "decode_inplace(data) returns Ok(b) iff decode(data, fresh buffer) returns Ok(b), with the same b, and never changes data at or after the decoded length m.", "quantifier": "every content and length of data, every variant, every instruction set", "why_tests_cant": "In-place operation is right only if no store ever reaches a source byte that is still to be read; the overlap differs for each iteration of each loop.", "anchors": ["crates/base64-simd/src/lib.rs: Base64::decode_inplace", "crates/base64-simd/src/decode.rs: decode_simd, decode_fallback"]}
{"id": "C07", "title": "base64 check agrees with decode", "statement": "check(data) is Ok iff decode(data) into a large enough buffer is Ok.", "quantifier": "every text, every variant, every instruction set", "why_tests_cant": "Two separately written loops with different block thresholds must agree on infinitely many texts.", "anchors": ["crates/base64-simd/src/lib.rs: Base64::check", "crates/base64-simd/src/check.rs: check_fallback, check_simd"]}
{"id": "C08", "title": "base64 length functions are exact", "statement": "encoded_length(n) is the length of every encoding of n bytes; decoded_length(data) when Ok is the length of the decode result whenever decode is Ok, and it is Ok for every decodable text; estimated_decoded_length(n) >= decoded_length for every text of length n; no intermediate value overflows usize for n <= usize::MAX/2 (32- and 64-bit).", "quantifier": "every length n and every text, both word sizes", "why_tests_cant": "Boundary lengths near usize::MAX cannot be allocated in a test, and exactness has to hold for every length.", "anchors": ["crates/base64-simd/src/lib.rs: Base64::encoded_length, estimated_decoded_length, decoded_length", "crates/base64-simd/src/encode.rs: encoded_length_unchecked", "crates/base64-simd/src/decode.rs: decoded_length"]}
{"id": "C09", "title": "base64 instruction-set independence", "statement": "encode, decode, decode_inplace and check return the same value (Ok/Err and bytes) for the scalar fallback and for each instruction set the library can dispatch to.", "quantifier": "every input and every pair of {fallback, SSSE3, SSE4.1, AVX2, NEON 32/64-bit, WASM128}", "why_tests_cant": "A test run executes on one CPU; the selected instruction set varies on users' machines.", "anchors": ["crates/base64-simd/src/multiversion.rs", "crates/vsimd/src/unified.rs", "crates/vsimd/src/simd128.rs", "crates/vsimd/src/simd256.rs"]}
{"id": "C10", "title": "base64 memory safety", "statement": "No call of encode, decode, decode_inplace or check reads outside src, writes outside dst[..m], reads uninitialised memory, indexes a table out of range, forms an out-of-bounds pointer or reaches unreachable code.", "quantifier": "every input, every buffer, every variant, every instruction set", "why_tests_cant": "Out-of-bounds access by a few bytes is usually silent, and it depends on length thresholds for all lengths.", "anchors": ["crates/base64-simd/src/encode.rs", "crates/base64-simd/src/decode.rs", "crates/base64-simd/src/check.rs", "crates/vsimd/src/tools.rs: read, write"]}
{"id": "C11", "title": "forgiving base64 decode follows WHATWG", "statement": "forgiving_decode_to_vec(data) returns exactly the result of the WHATWG Infra 'forgiving-base64 decode' algorithm: strip ASCII whitespace, if length%4==0 remove one or two trailing '=', fail if length%4==1 or a non-alphabet character remains, decode and drop surplus bits.", "quantifier": "every byte string, every instruction set", "why_tests_cant": "Whitespace can occur anywhere and in any amount and the SIMD scanner, compaction and decoder interact.", "anchors": ["crates/base64-simd/src/forgiving.rs", "crates/base64-simd/src/ascii.rs: find_non_ascii_whitespace, remove_ascii_whitespace_inplace"]}
{"id": "C12", "title": "forgiving variants agree", "statement": "forgiving_decode (copy), forgiving_decode_inplace and forgiving_decode_to_vec return the same bytes / the same Ok-or-Err for the same data; forgiving_decode additionally fails exactly when dst is shorter than the whole input.", "quantifier": "every byte string, every dst length and content, every instruction set", "why_tests_cant": "Three different code paths over infinitely many inputs.", "anchors": ["crates/base64-simd/src/forgiving.rs: forgiving_decode, forgiving_decode_inplace, forgiving_decode_to_vec"]}
{"id": "C13", "title": "base64 owned outputs", "statement": "encode_to_string / encode_type and decode_to_vec / decode_type return the same bytes as the slice functions; every allocation made has a size m with 0 < m <= isize::MAX, and every byte of the allocation is initialised before it is exposed.", "quantifier": "every input, every variant, every instruction set", "why_tests_cant": "Zero-size allocation or exposing one uninitialised byte is undefined behaviour that typically does not show in a test.", "anchors": ["crates/base64-simd/src/heap.rs: encode_to_boxed_str, decode_to_boxed_bytes", "crates/vsimd/src/tools.rs: alloc_uninit_bytes, assume_init, boxed_str"]}
{"id": "C14", "title": "base64 append semantics", "statement": "encode_append / decode_append leave the previous content as a prefix and append exactly the encoded / decoded bytes; when decode_append fails the visible content and length are unchanged.", "quantifier": "every previous content, every spare capacity content, every input, every variant, every instruction set", "why_tests_cant": "Quantifies over arbitrary previous content and spare capacity and over all error positions.", "anchors": ["crates/base64-simd/src/heap.rs: encode_append_vec, decode_append_vec"]}
{"id": "C15", "title": "parallel base64 encode equals sequential encode", "statement": "For a large enough dst, par_encode returns the same bytes as encode regardless of how many threads the pool has and in which order the chunks run.", "quantifier": "every src, every variant, every number of threads, every schedule of the chunk tasks", "why_tests_cant": "Schedules and pool sizes vary by machine; the chunk boundary arithmetic has to be right for all (length, threads) pairs.", "anchors": ["crates/base64-simd/src/parallel.rs: par_encode"]}
{"id": "C16", "title": "parallel base64 encode reports a short dst as Err", "statement": "par_encode returns Err (and does not panic) whenever dst is shorter than the encoded length, as its documentation promises.", "quantifier": "every src, dst length, thread count", "why_tests_cant": "Only inputs above 4096 bytes per thread reach the parallel path, with any thread count.", "anchors": ["crates/base64-simd/src/parallel.rs: par_encode"]}
{"id": "C17", "title": "base64 output is ASCII text", "statement": "Every byte produced by base64 encoding is a character of the variant's alphabet or '=', so the unchecked conversion to str / String is sound also after an arbitrary valid UTF-8 prefix.", "quantifier": "every input, every variant, every previous String content", "why_tests_cant": "Soundness of from_utf8_unchecked must hold for all inputs; a single stray byte is undefined behaviour.", "anchors": ["crates/base64-simd/src/lib.rs: Base64::encode_as_str", "crates/base64-simd/src/heap.rs: impl AppendBase64Encode for String"]}
{"id": "C18", "title": "ASCII whitespace scan and removal", "statement": "The scanner used by forgiving decode returns the index of the first ASCII whitespace byte (or the length), and in-place removal leaves exactly the non-whitespace bytes in their original order, without touching anything behind the slice.", "quantifier": "every byte string, every instruction set", "why_tests_cant": "Position of the first hit interacts with 32/16-byte blocks for all lengths.", "anchors": ["crates/base64-simd/src/ascii.rs"]}
{"id": "C19", "title": "base32 encode equals RFC 4648", "statement": "For each of the four base32 variants, encode writes exactly the RFC 4648 base32 / base32hex text (5-bit groups, '=' padding to a multiple of eight when the variant pads).", "quantifier": "every byte string of any length, every variant, fallback and every dispatchable instruction set", "why_tests_cant": "The input length is unbounded and each block path (scalar, 16-byte, 32-byte, overlapping head/tail) is entered at different lengths; a test sees finitely many lengths and contents on the one instruction set of the test machine.", "anchors": ["crates/base32-simd/src/lib.rs: Base32::encode", "crates/base32-simd/src/encode.rs: encode_fallback, encode_simd, encode_bits, read_be_bytes, encode_extra, split_bits, encode_values"]}
{"id": "C20", "title": "base32 encode buffer contract", "statement": "encode returns Err iff dst is shorter than encoded_length; on Err dst is untouched; on Ok dst[..m] is initialised and dst[m..] unchanged.", "quantifier": "every src, every dst length and content, every variant, every instruction set", "why_tests_cant": "Wide stores versus every length residue.", "anchors": ["crates/base32-simd/src/lib.rs: Base32::encode", "crates/base32-simd/src/encode.rs: encode_simd, encoded_length_unchecked"]}
{"id": "C21", "title": "base32 round trip", "statement": "decode(encode(x)) = Ok(x).", "quantifier": "every byte string, every variant, every pair of instruction sets", "why_tests_cant": "The input length is unbounded and each block path (scalar, 16-byte, 32-byte, overlapping head/tail) is entered at different lengths; a test sees finitely many lengths and contents on the one instruction set of the test machine.", "anchors": ["crates/base32-simd/src/lib.rs: Base32::encode, Base32::decode"]}
{"id": "C22", "title": "base32 decode is strict and canonical", "statement": "decode returns Ok(b) iff the text is exactly encode(b): in particular '=' counted anywhere in the last six characters never lets a misplaced padding character, a wrong padding length or non-zero trailing bits through.", "quantifier": "every text, every b, every variant, every instruction set", "why_tests_cant": "The padding rule counts '=' without looking at positions; that this is still strict is an argument over all texts.", "anchors": ["crates/base32-simd/src/decode.rs: decoded_length, decode_extra, decode_fallback, decode_simd, merge_bits"]}
{"id": "C23", "title": "base32 decode buffer contract", "statement": "decode fails on a valid text only if dst is shorter than m; bytes at index >= m are never modified or read, on Ok or Err.", "quantifier": "every text, every dst, every variant, every instruction set", "why_tests_cant": "16-byte stores carry 10 bytes of data.", "anchors": ["crates/base32-simd/src/lib.rs: Base32::decode", "crates/base32-simd/src/decode.rs: decode_simd"]}
{"id": "C24", "title": "base32 in-place decode equals copy decode", "statement": "decode_inplace gives the same Ok/Err and bytes as decode and leaves data[m..] unchanged.", "quantifier": "every data, every variant, every instruction set", "why_tests_cant": "Needs that stores never overtake pending loads in any iteration.", "anchors": ["crates/base32-simd/src/lib.rs: Base32::decode_inplace"]}
{"id": "C25", "title": "base32 check agrees with decode", "statement": "check(data) is Ok iff decode(data) into a large enough buffer is Ok.", "quantifier": "every text, every variant, every instruction set", "why_tests_cant": "Two separately written loops over infinitely many texts.", "anchors": ["crates/base32-simd/src/check.rs", "crates/base32-simd/src/lib.rs: Base32::check"]}
{"id": "C26", "title": "base32 length functions are exact", "statement": "encoded_length, decoded_length and estimated_decoded_length are exact / exact / an upper bound, without usize overflow for n <= usize::MAX/2.", "quantifier": "every length and text, both word sizes", "why_tests_cant": "Extreme lengths cannot be allocated; exactness is for all lengths.", "anchors": ["crates/base32-simd/src/lib.rs", "crates/base32-simd/src/encode.rs: encoded_length_unchecked", "crates/base32-simd/src/decode.rs: decoded_length"]}
{"id": "C27", "title": "base32 instruction-set independence and memory safety", "statement": "encode, decode, decode_inplace and check behave the same on the fallback and each dispatchable instruction set, with no out-of-bounds or uninitialised access, bad table index or unreachable code.", "quantifier": "every input, buffer, variant and instruction set", "why_tests_cant": "One CPU per test run; silent out-of-bounds access.", "anchors": ["crates/base32-simd/src/multiversion.rs", "crates/base32-simd/src/encode.rs", "crates/base32-simd/src/decode.rs", "crates/base32-simd/src/check.rs"]}
{"id": "C28", "title": "base32 owned, append and text outputs", "statement": "encode_to_string, decode_to_vec, encode_append, decode_append agree with the slice functions; allocation sizes are positive, exposed memory is initialised; decode_append leaves the target unchanged on Err; encoder output is ASCII from the alphabet or '='.", "quantifier": "every input, previous content, spare capacity, variant, instruction set", "why_tests_cant": "Undefined behaviour in unsafe allocation code is not observable by ordinary tests.", "anchors": ["crates/base32-simd/src/heap.rs"]}
{"id": "C29", "title": "hex encode", "statement": "encode writes, for every byte, its high then low nibble as hexadecimal digits of the requested case.", "quantifier": "every byte string, both cases, fallback and every dispatchable instruction set", "why_tests_cant": "The input length is unbounded and each block path (scalar, 16-byte, 32-byte, overlapping head/tail) is entered at different lengths; a test sees finitely many lengths and contents on the one instruction set of the test machine.", "anchors": ["crates/hex-simd/src/lib.rs: encode", "crates/hex-simd/src/encode.rs", "crates/vsimd/src/hex.rs: encode_bytes16, encode_bytes32, sse2"]}
{"id": "C30", "title": "hex encode buffer contract", "statement": "encode returns Err iff dst.len()/2 < src.len() (i.e. dst shorter than 2*src.len()); on Err dst is untouched, on Ok dst[2n..] is unchanged.", "quantifier": "every src, every dst length and content, every instruction set", "why_tests_cant": "All length residues of four different vector paths.", "anchors": ["crates/hex-simd/src/lib.rs: encode"]}
{"id": "C31", "title": "hex decode is exact and case-insensitive", "statement": "decode returns Ok(b) iff the text has even length and lowercasing it gives the lowercase hex encoding of b.", "quantifier": "every text, every b, every instruction set", "why_tests_cant": "Every byte value next to every neighbour in each vector path.", "anchors": ["crates/hex-simd/src/lib.rs: decode", "crates/hex-simd/src/decode.rs", "crates/vsimd/src/hex.rs: unhex, decode_ascii16, decode_ascii32, decode_ascii32x2, sse2::decode_nibbles"]}
{"id": "C32", "title": "hex round trip", "statement": "decode(encode(x, case)) = Ok(x) for both cases.", "quantifier": "every byte string, both cases, every pair of instruction sets", "why_tests_cant": "The input length is unbounded and each block path (scalar, 16-byte, 32-byte, overlapping head/tail) is entered at different lengths; a test sees finitely many lengths and contents on the one instruction set of the test machine.", "anchors": ["crates/hex-simd/src/lib.rs: encode, decode"]}
{"id": "C33", "title": "hex decode buffer contract", "statement": "A valid text fails only if dst.len() < len/2; dst[len/2..] is never modified, on Ok or Err.", "quantifier": "every text, every dst, every instruction set", "why_tests_cant": "Error position and length residue matter in each path.", "anchors": ["crates/hex-simd/src/lib.rs: decode", "crates/hex-simd/src/decode.rs"]}
{"id": "C34", "title": "hex in-place decode equals copy decode", "statement": "decode_inplace gives the same Ok/Err and bytes as decode, and leaves data[len/2..] unchanged.", "quantifier": "every data, every instruction set", "why_tests_cant": "Overlap of loads and stores in every iteration.", "anchors": ["crates/hex-simd/src/lib.rs: decode_inplace", "crates/hex-simd/src/decode.rs: decode_long, decode_short, decode_simd_v256"]}
{"id": "C35", "title": "hex check", "statement": "check is Ok iff every byte is one of 0-9, a-f, A-F (odd lengths included); hence for even length check agrees with decode.", "quantifier": "every byte string, every instruction set", "why_tests_cant": "Each byte at each position of each block path.", "anchors": ["crates/hex-simd/src/check.rs", "crates/vsimd/src/hex.rs: check_xn"]}
{"id": "C36", "title": "hex instruction-set independence and memory safety", "statement": "check, encode, decode, decode_inplace behave the same for the fallback and each dispatchable instruction set, never access memory out of bounds or uninitialised and never reach unreachable code.", "quantifier": "every input, buffer and instruction set", "why_tests_cant": "One CPU per run; silent out-of-bounds access.", "anchors": ["crates/hex-simd/src/multiversion.rs", "crates/hex-simd/src/encode.rs", "crates/hex-simd/src/decode.rs", "crates/hex-simd/src/check.rs"]}
{"id": "C37", "title": "hex length, owned, append and text outputs", "statement": "encoded_length = 2n without overflow for n <= usize::MAX/2; decoded_length is Ok(n/2) iff n is even; encode_to_string, decode_to_vec, encode_append, decode_append agree with the slice functions, initialise everything they expose, and decode_append leaves the target unchanged on Err; output is ASCII.", "quantifier": "every input, previous content, spare capacity, case, instruction set", "why_tests_cant": "Undefined behaviour in unsafe allocation code is not observable by ordinary tests.", "anchors": ["crates/hex-simd/src/heap.rs", "crates/hex-simd/src/lib.rs: encoded_length, decoded_length"]}
{"id": "C38", "title": "uuid parse_simple / parse_hyphenated", "statement": "parse_simple accepts exactly 32 hex digits and parse_hyphenated exactly the 8-4-4-4-12 form with '-' at offsets 8, 13, 18, 23 (both letter cases), and the result is the 16 bytes denoted.", "quantifier": "every byte string (any length), fallback and every dispatchable instruction set", "why_tests_cant": "2^288 candidate texts; the SIMD path inspects hyphens and digits with shuffles that unit vectors only sample.", "anchors": ["crates/uuid-simd/src/lib.rs: parse_simple, parse_hyphenated", "crates/uuid-simd/src/parse.rs"]}
{"id": "C39", "title": "uuid parse accepts exactly four formats", "statement": "parse returns Ok(u) iff the text is the simple, hyphenated, braced or urn:uuid: form of u (hex digits of either case); everything else is Err.", "quantifier": "every byte string, every instruction set", "why_tests_cant": "All lengths and contents must be rejected except four shapes.", "anchors": ["crates/uuid-simd/src/lib.rs: parse", "crates/uuid-simd/src/parse.rs"]}
{"id": "C40", "title": "uuid format", "statement": "format_simple / format_hyphenated write exactly the 32 / 36 character text of the 16 bytes in the requested case, initialising all of the output and nothing else.", "quantifier": "every 16-byte value, both cases, fallback and every dispatchable instruction set", "why_tests_cant": "2^128 values.", "anchors": ["crates/uuid-simd/src/lib.rs: format_simple, format_hyphenated", "crates/uuid-simd/src/format.rs"]}
{"id": "C41", "title": "uuid round trip", "statement": "parse(format_simple(u)) = parse(format_hyphenated(u)) = Ok(u) for both cases, for any combination of instruction sets.", "quantifier": "every 16-byte value", "why_tests_cant": "2^128 values.", "anchors": ["crates/uuid-simd/src/lib.rs", "crates/uuid-simd/src/ext.rs"]}
{"id": "C42", "title": "uuid instruction-set independence and memory safety", "statement": "All uuid functions agree between fallback and each dispatchable instruction set and access only src[..len] and dst[..32 or 36].", "quantifier": "every input, every instruction set", "why_tests_cant": "Overlapping unaligned loads/stores and one CPU per run.", "anchors": ["crates/uuid-simd/src/multiversion.rs", "crates/uuid-simd/src/parse.rs", "crates/uuid-simd/src/format.rs", "crates/uuid-simd/src/spec.rs"]}
{"id": "C43", "title": "is_ascii", "statement": "is_ascii(data) iff every byte is < 0x80; from_ascii returns Some(the same text) exactly then.", "quantifier": "every byte string, fallback and every dispatchable instruction set, including the special x86-64 SSE2 path", "why_tests_cant": "The SSE2 path uses overlapping loads with different code for lengths 0-15, 16-31, 32-63, 64+.", "anchors": ["crates/unicode-simd/src/lib.rs: is_ascii, from_ascii", "crates/unicode-simd/src/ascii.rs"]}
{"id": "C44", "title": "is_utf32le", "statement": "is_utf32le(data) iff every element is a Unicode scalar value (<= 0x10FFFF and not a surrogate).", "quantifier": "every sequence of 32-bit words, fallback and every dispatchable instruction set", "why_tests_cant": "The check xors, wraps and takes a running maximum over lanes.", "anchors": ["crates/unicode-simd/src/lib.rs: is_utf32le", "crates/unicode-simd/src/utf32.rs"]}
{"id": "C45", "title": "endianness swap is correct", "statement": "utf16_swap_endianness / utf32_swap_endianness (copy and in place) reverse the bytes of every element, keep the order of elements, leave the rest of dst unchanged and are involutions.", "quantifier": "every sequence, every dst, fallback and every instruction set whose dispatch can select a working kernel", "why_tests_cant": "Lengths and instruction sets vary.", "anchors": ["crates/unicode-simd/src/lib.rs", "crates/unicode-simd/src/utf16.rs", "crates/unicode-simd/src/utf32.rs", "crates/vsimd/src/bswap.rs"]}
{"id": "C46", "title": "endianness swap never panics on a supported CPU", "statement": "For every CPU feature set, swapping a slice into a dst of at least the same length returns normally.", "quantifier": "every feature set of the running CPU, every length", "why_tests_cant": "Test machines have AVX2, where another kernel is chosen.", "anchors": ["crates/unicode-simd/src/multiversion.rs: utf16_swap_endianness", "crates/unicode-simd/src/multiversion.rs: utf32_swap_endianness", "crates/vsimd/src/simd128.rs: u16x8_bswap, u32x4_bswap"]}
{"id": "C47", "title": "dispatch returns a supported implementation under every schedule", "statement": "With run-time detection, any number of threads calling a dispatched function concurrently and repeatedly always execute one same implementation whose instruction set the CPU supports (or the fallback), whatever the interleaving of the relaxed loads and stores of the function pointer.", "quantifier": "every number of threads, every interleaving, every CPU feature set and compile-time feature set", "why_tests_cant": "Schedules cannot be enumerated by tests.", "anchors": ["crates/vsimd/src/macros.rs: dispatch!", "crates/vsimd/src/isa.rs"]}
{"id": "C48", "title": "no dispatchable instruction set hits an unimplemented vector operation", "statement": "For each public function and each target in its dispatch list, every vector operation executed is implemented for that target, so no call panics because of instruction-set selection.", "quantifier": "every public function, every dispatch target, every input", "why_tests_cant": "A missing implementation is only hit on a CPU whose best listed target is the one lacking it.", "anchors": ["crates/vsimd/src/simd128.rs", "crates/vsimd/src/simd256.rs", "crates/vsimd/src/unified.rs", "crates/base32-simd/src/multiversion.rs", "crates/base64-simd/src/multiversion.rs", "crates/hex-simd/src/multiversion.rs", "crates/unicode-simd/src/multiversion.rs", "crates/uuid-simd/src/multiversion.rs"]}
{"id": "C49", "title": "vector classifier is context independent", "statement": "The vectorised base64/base32/hex character check and decode depend on each byte alone: the bits leaking in from the neighbouring byte by the 32-bit shift never change acceptance nor the decoded value.", "quantifier": "every byte, every neighbouring byte, every lane, every table", "why_tests_cant": "The unit tests check one fixed value of the leaked bits.", "anchors": ["crates/vsimd/src/alsw.rs: check_ascii_xn, decode_ascii_xn, hash, avgr", "crates/base64-simd/src/alsw.rs", "crates/base32-simd/src/alsw.rs", "crates/vsimd/src/hex.rs: HexAlsw"]}
{"id": "C50", "title": "uuid extension trait is sound and exact", "statement": "UuidExt::parse, parse_simple and parse_hyphenated return exactly the value whose text they were given and an error on every other input; they never treat an uninitialised byte of the local MaybeUninit value as initialised. The LowerHex/UpperHex/Display formatters hand the formatter exactly the text of the value, every byte of it initialised and ASCII, so from_utf8_unchecked is sound. This holds wherever the text or the value lies, and no allocation that existed before the call changes.", "quantifier": "every byte string, every 16-byte value, all memories and positions, both cases, every implementation", "why_tests_cant": "Soundness of assume_init and from_utf8_unchecked concerns every input, and undefined behaviour need not show in a test.", "anchors": ["crates/uuid-simd/src/ext.rs: parse_uuid, UuidExt", "crates/uuid-simd/src/ext.rs: format_uuid, AsciiCase formatters"]}
{"id": "C51", "title": "every element-wise vsimd operation computes the mathematical operation on every lane, on every instruction set", "statement": "add, sub, eq, lt, saturating add/sub, max, min (for every integer element type the generic code supports, both widths), splat, multiplications, shifts, averages, bitwise operations, multiply-add, pack and widening of the vsimd traits: whenever the operation is implemented on an instruction set, each element of the result is the exact integer operation (wrapped, clamped, compared as signed or unsigned) of the elements of the inputs. Hence any two instruction sets that implement it agree, and the specialised trait methods agree with the generic functions.", "quantifier": "every instruction set, every element type, both vector widths, all vector values", "why_tests_cant": "The inputs are pairs of 128- or 256-bit values, on seven instruction sets; several branches (SSE2 unsigned comparisons through max, saturating 32-bit operations) are emulations with corner cases at the sign boundary.", "anchors": ["crates/vsimd/src/unified.rs", "crates/vsimd/src/simd128.rs", "crates/vsimd/src/simd256.rs"]}
{"id": "C52", "title": "every vsimd data movement operation moves the documented elements", "statement": "zip_lo/zip_hi of every width interleave the low/high elements; unzip_even/odd take every other element; bswap reverses the bytes of every element; swizzle looks up every index (index below 16 selects, 128 and above gives zero); blend, blendv, permute and half interleaving select the elements named by their immediate or mask.", "quantifier": "every instruction set that implements the operation, both vector widths, all vector values, every immediate", "why_tests_cant": "Each operation has per-instruction-set shuffle constants, and tests only run on the instruction sets of the test machine.", "anchors": ["crates/vsimd/src/simd128.rs: zip, unzip, bswap, swizzle, blend", "crates/vsimd/src/simd256.rs", "crates/vsimd/src/bswap.rs"]}
{"id": "C53", "title": "masks, reductions and lane tests answer for every lane", "statement": "u8x16/u8x32 bitmask returns exactly the high bits of the bytes; any_zero, all_zero, highbit_all, highbit_any, mask8_all, mask8_any say whether some or every byte satisfies the test; reduce_max and reduce_min return the largest and smallest byte. any_zero and highbit_* never panic on any instruction set.", "quantifier": "every instruction set implementing the operation, both widths, all vector values (mask vectors for the mask tests)", "why_tests_cant": "2^128 or 2^256 vectors and seven instruction sets; a test that misses one lane is wrong for a sliver of the inputs.", "anchors": ["crates/vsimd/src/simd128.rs: u8x16_bitmask, u8x16_any_zero, v128_all_zero, u8x16_reduce_*", "crates/vsimd/src/simd256.rs: u8x32_bitmask, u8x32_any_zero, v256_all_zero, u8x32_reduce_*", "crates/vsimd/src/mask.rs"]}
{"id": "C54", "title": "each vsimd method is implemented exactly on the instruction sets its documentation lists", "statement": "A SIMD128 method returns (rather than reaching unreachable!) exactly on the instruction sets that imply one of the sets in its doc comment. A SIMD256 method without AVX2 returns exactly where its 128-bit half does; with AVX2 all but five return. The generic functions of unified.rs return exactly for the element types and instruction sets of a small table (64-bit comparisons only where there is an instruction for them, 32-bit saturation only on NEON).", "quantifier": "every method, every instruction set, all arguments", "why_tests_cant": "A missing branch only panics on the CPU that selects it; tests run on the CPUs available.", "anchors": ["crates/vsimd/src/simd128.rs", "crates/vsimd/src/simd256.rs"]}
{"id": "C55", "title": "vector ASCII case conversion changes exactly the letters", "statement": "to_ascii_lowercase maps each byte A-Z to a-z and leaves every other byte unchanged; to_ascii_uppercase maps a-z to A-Z and leaves every other byte unchanged. Neither panics.", "quantifier": "every instruction set, both vector widths, all vector values", "why_tests_cant": "The unit test of the crate is #[ignore]d and checks a scalar copy of the formula, not the vector code on each instruction set.", "anchors": ["crates/vsimd/src/ascii.rs:14-31"]}
{"id": "C56", "title": "the scalar stand-ins used under Miri compute what the intrinsics compute", "statement": "simulation::{u8x16_max, u8x16_min, u8x16_bitmask, u16x8_shl, u16x8_shr, i16x8_packus} return the bytes (or number) that the trait method they replace returns, so Miri checks the same function that runs in production.", "quantifier": "every instruction set implementing the method, all vector values, every shift below 16", "why_tests_cant": "Under Miri only the stand-in runs, elsewhere only the intrinsic: no single test run compares them.", "anchors": ["crates/vsimd/src/simulation.rs", "crates/vsimd/src/simd128.rs:395,440,737,1218"]}
{"id": "C57", "title": "Native::detect().exec(f) calls f exactly once under the best supported instruction set", "statement": "exec calls f exactly once and returns its result; the call is compiled with the best usable target feature of the architecture (AVX2, then SSE4.1, then SSE2; NEON; simd128) or with none; the feature is one the CPU has. isa::detect yields an instruction set only if its code can be executed.", "quantifier": "every compile-time configuration, every CPU, every closure and state", "why_tests_cant": "A test runs on one CPU with one configuration.", "anchors": ["crates/vsimd/src/native.rs", "crates/vsimd/src/isa.rs:12-16"]}
{"id": "C58", "title": "raw-pointer functions of hex-simd work under exactly their documented safety conditions", "statement": "check_raw, encode_raw and decode_raw, called with a source valid for reading len bytes, a destination valid for writing the result, and regions that do not overlap (or, for decode_raw, start at the same address), never have undefined behaviour, return the documented value, write exactly the encoded/decoded bytes at the destination and change no other byte; on an error at most the len/2 destination bytes have changed.", "quantifier": "any memory contents, any positions inside any allocations including both regions in one allocation in either order, any length, every implementation", "why_tests_cant": "The unsafe functions accept arbitrary pointers; tests try a few layouts with whole buffers.", "anchors": ["crates/hex-simd/src/lib.rs:92-136", "crates/hex-simd/src/encode.rs", "crates/hex-simd/src/decode.rs"]}
{"id": "C59", "title": "Codec functions work on slices anywhere in memory, including source and destination in one allocation", "statement": "For every memory, every readable source slice and every destination slice that does not overlap it, at any offsets and possibly inside the same allocation: encode and decode of base64-simd, base32-simd and hex-simd, and forgiving_decode, write exactly the specified bytes to the front of the destination and change no other cell (forgiving_decode: no cell outside the first src.len() bytes of the destination); on error only the destination may change and nothing changes if it is too short. decode_inplace and forgiving_decode_inplace do the same on a slice anywhere in memory; check of base64-simd and base32-simd changes nothing.", "quantifier": "all memories, positions, slice lengths and contents, destination sizes, alphabets, paddings, letter cases, implementations the crates can dispatch to, platforms", "why_tests_cant": "Tests allocate separate buffers; a load that starts a few bytes in front of the source or a store that spills a few bytes past the written length is invisible there but corrupts neighbouring data when both slices come from split_at_mut or the source is in the middle of a buffer.", "anchors": ["crates/base64-simd/src/lib.rs:232-290", "crates/base64-simd/src/forgiving.rs:21-64", "crates/base32-simd/src/lib.rs", "crates/hex-simd/src/lib.rs:157-200", "crates/base64-simd/src/encode.rs", "crates/base64-simd/src/decode.rs"]}
{"id": "C60", "title": "UUID and Unicode functions work on slices and arrays anywhere in memory", "statement": "For every memory, every readable source at any offset and every destination array or slice that does not overlap it, possibly inside the same allocation: parse, parse_simple, parse_hyphenated write the 16 bytes of the UUID and change no other cell, or return an error with at most the destination changed; format_simple and format_hyphenated write exactly the 32 or 36 characters; utf16_swap_endianness and utf32_swap_endianness write exactly the swapped elements (where the swap is implemented, see C46), also in place; is_ascii, from_ascii and is_utf32le change nothing and answer from the slice alone.", "quantifier": "all memories, positions, slice lengths and contents, letter cases, implementations the crates can dispatch to", "why_tests_cant": "The SIMD paths load fixed 16- or 32-byte blocks and store overlapping pieces; a load that starts next to the text or a store that spills over the end of the array is invisible when each test buffer is separately allocated.", "anchors": ["crates/uuid-simd/src/lib.rs:84-170", "crates/uuid-simd/src/parse.rs", "crates/uuid-simd/src/format.rs", "crates/unicode-simd/src/lib.rs:42-110", "crates/unicode-simd/src/utf16.rs", "crates/vsimd/src/bswap.rs"]}
{"id": "C61", "title": "Allocating and appending functions with the source anywhere in memory", "statement": "For every memory and every readable source at any offset of any allocation: encode_to_boxed_str, encode_to_string, decode_to_boxed_bytes, decode_to_vec (base64, base32, hex) and forgiving_decode_to_vec return a fresh allocation holding exactly the specified bytes, all initialised, or an error, and every older allocation is unchanged. encode_append and decode_append leave the vector with its old content followed by exactly the new bytes (or, on a decoding error, exactly its old content), whatever its spare capacity holds, and change no other allocation. The encoders panic exactly when the text exceeds usize::MAX / 2 or the vector cannot grow; decode_append of a valid text panics exactly when the vector cannot grow to hold the bytes, and forgiving_decode_to_vec exactly when the source contains ASCII whitespace and is too long for a vector of its length.", "quantifier": "all memories, positions, source contents and lengths, vectors with any length, capacity and spare contents, allocator over-allocation, platforms, variants, implementations", "why_tests_cant": "Tests give each buffer its own allocation and check only the result; they cannot show that no other allocation is touched, nor reach the length limits at which the functions panic.", "anchors": ["crates/base64-simd/src/heap.rs", "crates/base32-simd/src/heap.rs", "crates/hex-simd/src/heap.rs", "crates/base64-simd/src/forgiving.rs:74-101", "crates/vsimd/src/tools.rs:18-41"]}
{"id": "C62", "title": "par_encode works on slices anywhere in memory, for every schedule", "statement": "For every memory, every readable source at any offset and every destination that does not overlap it, possibly inside the same allocation, and for every number of threads and every interleaving of their loads and stores: par_encode has exactly one outcome, which is that the RFC 4648 text is written at the destination and no other cell of memory changes; no interleaving has a data race, undefined behaviour or a panic, and every execution ends. With a destination that is too short nothing is touched; the outcome is an error if the work is not split and a panic if it is.", "quantifier": "all memories, positions, slice lengths and contents, thread counts of which 4096 times the number fits usize, schedules, both alphabets with and without padding, all implementations", "why_tests_cant": "A task that reads a few bytes past its chunk is harmless when source and destination are separate allocations, but races with another task's stores when the destination lies right behind the source; tests neither place slices that way nor explore the schedules.", "anchors": ["crates/base64-simd/src/parallel.rs:11-52", "crates/base64-simd/src/encode.rs"]}
{"id": "C63", "title": "Every byte accessed lies in the source or in the returned part of the destination", "statement": "For every memory, whose bytes may all be initialised, and source and destination anywhere in it, also in one allocation, with no byte in common: every byte that encode, decode, parse, format or byte swapping loads is a byte of the source slice, and every byte it stores is a byte of the result it returns (on an error, of the destination; if the destination is too short for encode or for valid text, nothing is stored). check, is_ascii, from_ascii and is_utf32le store nothing. The in-place functions access only their slice. forgiving_decode loads from the destination only bytes that the same call has stored. The list of accesses is complete: a byte that changed is in it, and bytes not in it have no influence on the run.", "quantifier": "all memories, positions, slice lengths and contents, all variants and implementations", "why_tests_cant": "A vector load that reaches past the end of the source, or a store that writes back bytes next to the result unchanged, gives the right answer whenever the neighbouring memory is mapped, so tests that compare results pass; it is still undefined behaviour or a race in the caller.", "anchors": ["crates/base64-simd/src/encode.rs", "crates/base64-simd/src/decode.rs", "crates/base64-simd/src/check.rs", "crates/base64-simd/src/forgiving.rs", "crates/base32-simd/src/encode.rs", "crates/base32-simd/src/decode.rs", "crates/hex-simd/src/lib.rs", "crates/uuid-simd/src/lib.rs", "crates/unicode-simd/src/lib.rs"]}
{"id": "C64", "title": "Which encodings keep the order of the data", "statement": "The strings that hex encode_to_string returns, and those of base32 encode_to_string with the extended hex alphabet without padding, are in bytewise order exactly if the data are (RFC 4648, section 7). With padding, with the standard base32 alphabet, and with every base64 variant this is false, with concrete data. The simple and the hyphenated texts of two UUIDs, in the same case, are in bytewise order exactly if the values are.", "quantifier": "all data of any length, all memories and positions, both implementations chosen independently, upper and lower case", "why_tests_cant": "The claim relates two encodings of different lengths; the boundary case is data of which one is a prefix of the other, where the zero bits filled into the last group are compared with real data. Tests compare single encodings with expected strings.", "anchors": ["crates/base32-simd/src/lib.rs", "crates/base32-simd/src/encode.rs", "crates/hex-simd/src/encode.rs", "crates/uuid-simd/src/ext.rs:96-164"]}
{"id": "C65", "title": "Encoding or decoding in pieces of whole groups equals encoding or decoding the whole", "statement": "For every list of slices anywhere in memory, none overlapping the destination: calling encode on one after another, each writing behind the text of the one before, gives the encoding of the concatenated data if all lengths but the last are divisible by 3 (base64), 5 (base32) or 1 (hex), and an error exactly if the destination is shorter than that. Calling decode on pieces of a valid text with all lengths but the last divisible by 4, 8 or 2 gives the data. Without padding, and for hex, decoding in pieces also fails if the whole is invalid; with padding it may succeed on an invalid whole (concrete text).", "quantifier": "all numbers of pieces, all lengths and contents, all memories and positions, all variants and implementations", "why_tests_cant": "The claim is about any number of calls; a wrong tail only shows for particular lengths of particular pieces.", "anchors": ["crates/base64-simd/src/lib.rs", "crates/base32-simd/src/lib.rs", "crates/hex-simd/src/lib.rs"]}
{"id": "C66", "title": "The memory accesses do not depend on the data", "statement": "For two memories that may differ everywhere and two sources of the same length in the same place: encode, the UUID formatting functions, is_utf32le, the byte-order swaps and is_ascii (other than the x86-64 SSE2 code) make exactly the same sequence of loads and stores, at the same addresses with the same widths. The decoding, checking and parsing functions do so as long as neither input has been rejected: the sequence of one run is a prefix of the other, and only the point of rejection depends on the data (for padded texts, given '=' at the same places, which holds for all encodings of equally many bytes). For is_ascii with SSE2 on x86-64 the opposite is proved: it stops at the first word that is not ASCII.", "quantifier": "all pairs of memories, positions, lengths and contents, all variants and implementations; for encode and hex decode destinations that are long enough", "why_tests_cant": "The claim compares pairs of runs on all data; a test sees neither addresses nor widths of accesses.", "anchors": ["crates/base64-simd/src/encode.rs", "crates/base64-simd/src/decode.rs", "crates/base32-simd/src/encode.rs", "crates/base32-simd/src/decode.rs", "crates/hex-simd/src/encode.rs", "crates/hex-simd/src/decode.rs", "crates/uuid-simd/src/parse.rs", "crates/uuid-simd/src/format.rs", "crates/unicode-simd/src/ascii.rs", "crates/unicode-simd/src/utf32.rs"]}
{"id": "C67", "title": "Typed accesses to u16 and u32 slices are aligned", "statement": "is_utf32le, utf16_swap_endianness and utf32_swap_endianness (and the in-place forms) load only at addresses a whole number of elements behind the start of the source and store only a whole number of elements behind the start of the destination, in the vector part as well as in the part after it. Since such slices are aligned for their element type, the typed ptr::read and ptr::write of the scalar loops are never misaligned.", "quantifier": "all memories, slices, lengths, element types and implementations", "why_tests_cant": "x86 tolerates misaligned scalar accesses, so a run with a misaligned pointer gives the right bytes although it is undefined behaviour.", "anchors": ["crates/vsimd/src/bswap.rs:75-105", "crates/unicode-simd/src/utf32.rs:22-55"]}
{"id": "C68", "title": "The scalar code does not depend on the byte order of the target", "statement": "On big-endian as on little-endian targets the fallback implementations that access multi-byte integers natively give the specified results: base32 encoding and decoding (read_be_bytes and write_be_bytes with their u16/u32 accesses), base64 decoding (the u64 write of decode_ascii8), each also in place, and the four byte-swapping functions of unicode-simd, whose result holds the byte-swapped words in the byte order of the target.", "quantifier": "both byte orders, all inputs of any length, all variants, all previous contents of the destination", "why_tests_cant": "The test machines and the CI matrix are all little-endian, so a missing or superfluous to_be() is never run.", "anchors": ["crates/base32-simd/src/encode.rs:37-63", "crates/base32-simd/src/decode.rs:67-95", "crates/base64-simd/src/decode.rs:80-103", "crates/vsimd/src/bswap.rs:75-87"]}
{"id": "C69", "title": "What is_utf32le accepts for each byte order", "statement": "On every target is_utf32le returns true iff every u32 element, as a number, is a Unicode scalar value. As a test of bytes it therefore accepts exactly UTF-32LE on little-endian targets and exactly UTF-32BE on big-endian ones, where it rejects the UTF-32LE form of \"A\".", "quantifier": "both byte orders, all u32 slices of any length", "why_tests_cant": "Only little-endian targets are tested, and the function has no tests at all ('TODO: test, bench').", "anchors": ["crates/unicode-simd/src/utf32.rs:22-33", "crates/unicode-simd/src/lib.rs:55-62"]}
{"id": "C70", "title": "The scalar classifier functions agree with the vector code", "statement": "alsw::check accepts exactly the digits of each of the five character sets and alsw::decode gives their values; in each lane of a vector the vector code accepts and decodes the same, whatever the other lanes hold. The tables can be evaluated at compile time without underflow, and all assertions of test_check and test_decode hold.", "quantifier": "the five character sets, all bytes, all vectors and lanes, all instruction sets with a byte shuffle", "why_tests_cant": "The crate's tests compare the tables with the scalar functions, which set the three top bits of the hash that in the vector code come from the neighbouring byte; that the two agree is not tested.", "anchors": ["crates/vsimd/src/alsw.rs:14-90", "crates/vsimd/src/alsw.rs:129-232"]}
{"id": "C71", "title": "The outputs of the variants of one encoding are related as documented", "statement": "For the same input: base64 URL-safe output is the standard output with '-' for '+' and '_' for '/'; base32hex output is the base32 output with each digit replaced by the one at the same place of the other alphabet; output without padding is the output with padding minus its '='; upper-case hex is lower-case hex in upper case and conversely; the hyphenated UUID without its hyphens is the simple UUID.", "quantifier": "all inputs, all destinations long enough, all pairs of implementations", "why_tests_cant": "The tests fix one variant per call; the relation between two variants run by two different implementations is a statement about pairs of executions.", "anchors": ["crates/base64-simd/src/lib.rs:136-166", "crates/base64-simd/src/encode.rs: encode_fallback, encode_simd, encode_extra", "crates/base32-simd/src/lib.rs:98-121", "crates/base32-simd/src/encode.rs: encode_fallback, encode_simd, encode_extra", "crates/hex-simd/src/encode.rs", "crates/uuid-simd/src/format.rs"]}
{"id": "C72", "title": "Forgiving decoding extends strict decoding and ignores whitespace", "statement": "Whatever strict decode accepts for STANDARD or STANDARD_NO_PAD, forgiving_decode, forgiving_decode_inplace and forgiving_decode_to_vec accept with the same bytes. Two inputs which are the same without ASCII whitespace have the same forgiving_decode result. A byte that is neither ASCII whitespace nor '=' nor in the standard alphabet makes forgiving_decode fail wherever it stands.", "quantifier": "all inputs, all destinations at least as long as the input, all implementations of both steps", "why_tests_cant": "Relates two decoders, and two inputs of one decoder, over all lengths and positions of whitespace; the tests have a handful of literal strings.", "anchors": ["crates/base64-simd/src/forgiving.rs: forgiving_decode, forgiving_decode_inplace, forgiving_decode_to_vec", "crates/base64-simd/src/decode.rs: decode_fallback, decode_simd, decode_extra", "crates/base64-simd/src/ascii.rs: remove_ascii_whitespace_inplace, find_non_ascii_whitespace"]}
{"id": "C73", "title": "The width-generic operations mean the same on 16 and 32 bytes", "statement": "Every method of the Scalable trait, which the width-generic algorithms of the crates are written in, computes on 128-bit and on 256-bit vectors the same lane-by-lane function: bitwise operations, splats, wrapping and saturating arithmetic, comparisons, maxima, shifts, averages, in-register table lookup per 16 bytes, tests for zero, masks and high bits, and byte swaps. The only exceptions are panics: the table lookup on SSE2, and u32 maximum, the zero test and the byte swaps on SSE2 and SSSE3.", "quantifier": "all instruction sets, both widths, all operand vectors and shift counts", "why_tests_cant": "The trait has two implementations and default methods for seven instruction sets; tests reach them only through the crates and only for the machine they run on.", "anchors": ["crates/vsimd/src/scalable.rs: and, or, xor, andnot, u8xn_splat, u8xn_add, u8xn_sub, u32xn_max, u16xn_shl, u16xn_shr, u32xn_shr, u8xn_avgr, u8x16xn_swizzle, all_zero, mask8xn_all, mask8xn_any, u8xn_highbit_all, u8xn_highbit_any, u16xn_bswap, u32xn_bswap, u64xn_bswap"]}
{"id": "C74", "title": "The work of every operation is linear in its input", "statement": "The number of memory accesses of a call plus the number of bytes they transfer, repetitions included, is at most c times the length of the input plus d, with fixed c and d for every operation on slices of the four crates: base64 encode 5n+12, decode and decode_inplace 4n+12, check 2n+8, forgiving decoding 10n+65; base32 encode 6n+24, decode 4n+29, check 2n+21; hex encode 6n, decode 3n+3, check 2n; is_ascii 2n+68, is_utf32le 5n, byte swaps 6n and 10n; uuid parsing and formatting a constant, whatever is passed. This holds on every path, failing and panicking ones included, so no input makes an operation quadratic.", "quantifier": "all inputs and destinations of every length, all contents of memory, all implementations", "why_tests_cant": "A bound on cost over all lengths and contents; tests do not count accesses, and a rescan that depends on the position of a byte shows only on chosen inputs.", "anchors": ["crates/base64-simd/src/encode.rs: encode_fallback, encode_simd", "crates/base64-simd/src/decode.rs: decode_fallback, decode_simd", "crates/base64-simd/src/check.rs: check_fallback, check_simd", "crates/base64-simd/src/ascii.rs: find_non_ascii_whitespace, remove_ascii_whitespace_inplace", "crates/base64-simd/src/forgiving.rs: forgiving_decode, forgiving_decode_inplace", "crates/base32-simd/src/encode.rs: encode_fallback, encode_simd", "crates/base32-simd/src/decode.rs: decode_fallback, decode_simd", "crates/hex-simd/src/encode.rs: encode_simd", "crates/hex-simd/src/decode.rs: decode_simd", "crates/hex-simd/src/check.rs: check_simd", "crates/uuid-simd/src/parse.rs: parse_simple_simd, parse_hyphenated_simd", "crates/uuid-simd/src/format.rs: format_simple_simd, format_hyphenated_simd", "crates/unicode-simd/src/ascii.rs: is_ascii_fallback, is_ascii_simd", "crates/unicode-simd/src/utf32.rs: is_utf32le_simd", "crates/vsimd/src/bswap.rs: bswap_fallback, bswap_simd"]}
{"id": "C75", "title": "Any sequence of appending calls on one vector", "statement": "A client makes any number of encode_append and decode_append calls, in any mixture of base64, base32 and hex variants and implementations, on one vector. If the vector can hold everything, no call panics; each reports success or error as its operation says; the vector ends with its first content followed by what the calls add, in order, failing decodes adding nothing; no other allocation that existed at the start changes; the vector moves only to a new, larger allocation. If all calls encode and the content was UTF-8 (a String), it still is.", "quantifier": "all lists of calls of every length, all sources anywhere in memory, vectors of any length and capacity, allocator over-allocation, platforms, variants, implementations", "why_tests_cant": "An induction over the number of calls with the vector moving between allocations; tests make one call on one vector.", "anchors": ["crates/base64-simd/src/heap.rs: encode_append_vec, decode_append_vec", "crates/base32-simd/src/heap.rs: encode_append_vec, decode_append_vec", "crates/hex-simd/src/heap.rs: encode_append_vec, decode_append_vec", "crates/base64-simd/src/lib.rs:310-321", "crates/base32-simd/src/lib.rs:262-273", "crates/hex-simd/src/lib.rs:263-274"]}
{"id": "C76", "title": "Texts travel between machines", "statement": "Whatever encode_to_string (base64, base32, hex) or format_simple and format_hyphenated (uuid) produce on one machine, decode_to_vec of the same variant or parse turns into the original bytes on any other machine; for the standard base64 alphabet, padded or not, so does forgiving_decode_to_vec. The machines may differ in architecture, compile-time features, CPU features, word size, memory layout, and in how threads raced when the implementations were chosen.", "quantifier": "all pairs of builds, CPUs and word sizes, all implementations reachable in any thread schedule on each, all inputs, all memories on both sides, all variants", "why_tests_cant": "The product of two machines, two schedules and all inputs; a test runs on one machine.", "anchors": ["crates/base64-simd/src/heap.rs: encode_to_boxed_str, decode_to_boxed_bytes", "crates/base64-simd/src/forgiving.rs:74-101", "crates/base32-simd/src/heap.rs: encode_to_boxed_str, decode_to_boxed_bytes", "crates/hex-simd/src/heap.rs: encode_to_boxed_str, decode_to_boxed_bytes", "crates/uuid-simd/src/parse.rs: parse_simple_simd, parse_hyphenated_simd", "crates/uuid-simd/src/format.rs: format_simple_simd, format_hyphenated_simd", "crates/vsimd/src/macros.rs: dispatch"]}
{"id": "C77", "title": "The type asked for does not change the result", "statement": "encode_type for Box<[u8]>, Box<str>, Vec<u8> and String, and decode_type for Box<[u8]> and Vec<u8>, of base64, base32 and hex, give a value of the chosen type that owns exactly the specified bytes in a new allocation of exactly that size, UTF-8 for Box<str> and String, or fail for exactly the inputs for which the other types fail; no older allocation changes.", "quantifier": "all result types, memories, source positions, contents and lengths, platforms, variants, implementations", "why_tests_cant": "Soundness of the unchecked conversion to str and exactness of the allocation hold for all inputs and lengths, including those at which the functions panic; tests compare contents on samples.", "anchors": ["crates/base64-simd/src/heap.rs:105-154", "crates/base32-simd/src/heap.rs:101-150", "crates/hex-simd/src/heap.rs:98-149", "crates/base64-simd/src/lib.rs:295-306", "crates/base32-simd/src/lib.rs:247-258", "crates/hex-simd/src/lib.rs:233-244", "crates/vsimd/src/tools.rs:93-96"]}
{"id": "C78", "title": "Concurrent calls do not disturb each other", "statement": "Threads that call the slice functions of the five crates at the same time (encode, decode, decode_inplace, check, forgiving_decode, uuid parse and format, is_ascii, is_utf32le, endianness swaps), where sources may be shared and what one thread borrows with &mut is borrowed by no other: under every schedule there is no data race, no undefined behaviour and no deadlock, all threads end after a bounded number of steps, every call returns what it returns when made alone and leaves the same bytes in its destination, and no byte outside the destinations changes. In particular any number of threads encoding at once leave exactly the RFC 4648 texts in their destinations.", "quantifier": "all numbers of threads, all mixtures of calls, all interleavings of single memory accesses, all inputs and memory layouts (all slices may lie in one allocation), all machines", "why_tests_cant": "The number of interleavings is exponential; a race shows up once in a million runs or only on other hardware.", "anchors": ["crates/base64-simd/src/lib.rs:222-290", "crates/base64-simd/src/forgiving.rs:21-61", "crates/base32-simd/src/lib.rs:173-242", "crates/hex-simd/src/lib.rs:145-200", "crates/uuid-simd/src/lib.rs:81-170", "crates/unicode-simd/src/lib.rs:44-110"]}
{"id": "C79", "title": "Concurrent calls that allocate do not disturb each other", "statement": "Threads that call at the same time any of the slice functions of C78 and any of the functions that return a new box, vector or string (encode_type, decode_type and thereby encode_to_string and decode_to_vec of base64-simd, base32-simd and hex-simd, forgiving_decode_to_vec) or append to a vector (encode_append, decode_append), where sources may be shared and what one thread borrows with &mut, in particular the vector it appends to, is borrowed by no other: under every schedule there is no data race, no undefined behaviour and no deadlock, all threads end after a bounded number of steps, every call has the outcome it has when made alone up to the addresses of the allocations it has made, with the same bytes in its destination, its vector and its new allocations; allocations made by different threads are different; nothing else changes. In particular any number of threads that encode to strings at once get strings of their own holding exactly the RFC 4648 texts, and any number of threads that append to vectors of their own leave exactly the old contents followed by the texts.", "quantifier": "all numbers of threads, all mixtures of calls, all interleavings of single memory accesses and allocations, all inputs, memory layouts, vectors and capacities, all machines", "why_tests_cant": "The number of interleavings is exponential, and which addresses the allocator hands out depends on the schedule; a race shows up once in a million runs.", "anchors": ["crates/base64-simd/src/lib.rs:295-341", "crates/base64-simd/src/heap.rs:13-178", "crates/base64-simd/src/forgiving.rs:74-101", "crates/base32-simd/src/lib.rs:247-293", "crates/base32-simd/src/heap.rs:13-174", "crates/hex-simd/src/lib.rs:233-294", "crates/hex-simd/src/heap.rs:13-172"]}
{"id": "C80", "title": "UUIDs and errors are printed as asked for, and printed UUIDs parse back", "statement": "Formatting the adapters of `UuidExt::format_simple` and `format_hyphenated` with `{}`, `{:x}` or `{:X}`, with any fill character, alignment, width and precision, writes the text of the value (lower case, or upper case for `{:X}`) cut to the precision and filled up to the width on the sides the alignment asks for; if the sink is too small for it an error is reported and a proper prefix has been written. `to_string` followed by `Uuid::parse` (or the parser for that form) gives the same UUID, whatever instruction sets the two sides use. The `Error` types of the four crates print their names with `{}` and the names in quotation marks with `{:?}`.", "quantifier": "all 16-byte values, all formatting options, all sinks (limited or not), all implementations of the formatter and the parser", "why_tests_cant": "Width, precision, fill and the room in the sink are unbounded and combine freely with 2^128 values; the tests format a few values without options.", "anchors": ["crates/uuid-simd/src/ext.rs:96-164", "crates/base64-simd/src/error.rs:13-25", "crates/base32-simd/src/error.rs:13-25", "crates/hex-simd/src/error.rs:13-25", "crates/uuid-simd/src/error.rs:13-25"]}
{"id": "C81", "title": "Threads that make many calls, each depending on the earlier results, do not disturb each other", "statement": "Threads each of which makes any number of calls of the slice functions of C78, reads and writes bytes of its own between the calls, and decides by what the calls returned (Ok with a value or Err) which call to make next: if each thread, when run alone, only uses bytes it holds, and what one thread holds with &mut is held by no other, then under every schedule there is no data race, no undefined behaviour and no deadlock, all threads end after a bounded number of steps, every thread ends with the result it has when run alone and with the same bytes, and nothing else changes. In particular any number of threads that encode shared data with base64-simd to buffers of their own and decode the texts in place all end with their data in their buffers. Likewise threads that decode a text as hexadecimal and, if that is an error, as base64 end with what the text stands for, or with nothing if it stands for nothing.", "quantifier": "all numbers of threads, all adaptive sequences of calls of any length, all interleavings of single memory accesses, all inputs and memory layouts, all machines", "why_tests_cant": "Programs that use a library make many calls, so the interleavings of one call of each thread, which are too many to test already, are the least of it.", "anchors": ["crates/base64-simd/src/lib.rs:222-290", "crates/base64-simd/src/forgiving.rs:21-61", "crates/base32-simd/src/lib.rs:173-242", "crates/hex-simd/src/lib.rs:145-200", "crates/uuid-simd/src/lib.rs:81-170", "crates/unicode-simd/src/lib.rs:44-110"]}
{"id": "C82", "title": "How many heap allocations each function makes, and of what sizes", "statement": "Functions on slices allocate nothing. encode_type makes exactly one allocation, of exactly the size of the text (none for an empty input, none if it panics because the text is too long), whatever owned type is asked for. decode_type makes, for a valid text, exactly one allocation, of exactly the size of the decoded bytes (none if there are none); for an invalid one at most one, of at most 3 bytes for 4 characters in base64, 5 for 8 in base32, 1 for 2 in hexadecimal. encode_append and decode_append make none if the new bytes fit into the spare capacity, else one, of the size of the old content, the new bytes and what the allocator adds. forgiving_decode_to_vec makes one of the size of the text if there is whitespace in it, else one of the size of the result. No call makes more than one allocation, and none asks for more than isize::MAX bytes.", "quantifier": "all inputs, memories, capacities, allocators, variants, implementations, result types, machines and pointer widths", "why_tests_cant": "A test can count the allocations of the inputs it tries; that there is never a second one, a reallocation or one of the wrong size is a statement about all of them.", "anchors": ["crates/vsimd/src/tools.rs:18-41", "crates/base64-simd/src/heap.rs:17-178", "crates/base64-simd/src/forgiving.rs:74-101", "crates/base32-simd/src/heap.rs", "crates/hex-simd/src/heap.rs:13-172"]}
{"id": "C83", "title": "Exactly when a safe call panics; otherwise it returns", "statement": "A call of a safe function on slices panics if and only if it is a byte swap to a slice shorter than the source (documented), or a byte swap of 32 bytes or more with the SSSE3 implementation (finding A); every other such call returns a value or an error. A call that allocates panics if and only if: the text of an encoder has more than half of usize::MAX bytes; the vector of an appending encoder cannot grow by the length of the text; the vector of an appending decoder cannot grow by what decoded_length returns for the source (for hexadecimal: the length is even and it cannot grow by half of it); or forgiving_decode_to_vec meets whitespace and cannot allocate a vector of the length of the source. decode_type never panics. In particular a call that allocates never panics if a vector of the old content, twice the source, 6 bytes and what the allocator adds can exist.", "quantifier": "all calls of safe functions of the four crates, arguments, memories, capacities, allocators, variants, implementations a machine may run, machines and pointer widths", "why_tests_cant": "A test shows that the inputs tried do not panic; the conditions involve lengths near isize::MAX and instruction sets the test machine does not have.", "anchors": ["crates/unicode-simd/src/lib.rs:37-110", "crates/unicode-simd/src/multiversion.rs:21-37", "crates/base64-simd/src/lib.rs:150-341", "crates/base64-simd/src/heap.rs:17-178", "crates/base64-simd/src/forgiving.rs:12-101", "crates/base32-simd/src/heap.rs", "crates/hex-simd/src/heap.rs:13-172", "crates/uuid-simd/src/lib.rs"]}
{"id": "C84", "title": "The public helpers of vsimd", "statement": "tools::unroll with a chunk size other than 0 calls the closure on every element of the slice once and in order, stopping at the first call that panics; with chunk size 0 it panics without a call. pod::align cuts a slice into three parts whose bytes in order are the bytes of the slice; the middle part lies at a multiple of the alignment of the target type, directly behind the first part unless it is empty, and no other cut has a longer aligned middle part. tools::print_fn_table shows on a terminal the 16 by 16 table of the function, each value as two hexadecimal digits in the row and column of its argument, red for primary arguments, otherwise cyan from 0x80 on and green below. from_bytes, as_bytes, to_v64x2, to_v128x2, from_v128x2, to_v256x2, from_v256x2, x2, double_bytes and to_u64 keep the bytes in order.", "quantifier": "all slices, chunk sizes, closures (with any state, and panicking at any call), element sizes, addresses, alignments, functions and vectors", "why_tests_cant": "The number of chunks and the rest, the address of the slice and the sizes are unbounded; the functions have no tests.", "anchors": ["crates/vsimd/src/tools.rs:64-70", "crates/vsimd/src/tools.rs:108-128", "crates/vsimd/src/pod.rs:23-25", "crates/vsimd/src/vector.rs:122-239"]}
{"id": "C85", "title": "The slice functions obey the aliasing rules for references", "statement": "A safe function on slices that is lent memory as safe Rust lends it (a shared reference to its source, an exclusive one or a write pointer to its destination) never violates the aliasing rules of Stacked Borrows: no reference or raw pointer that a later access has invalidated is used, and nothing that a call protects is invalidated. It ends as it does without the rules, with the same memory and result. Afterwards the borrow stacks of bytes it did not borrow are unchanged, the caller can still read and write through the pointers it lent, so that any number of further calls may use them, nothing stays protected, and a returned slice is the topmost, exclusive reference to its bytes.", "quantifier": "all slice functions of base64-simd, base32-simd, hex-simd, uuid-simd and unicode-simd, all implementations a dispatcher chooses, all inputs, lengths and positions in memory, all states of the borrow stacks in which the caller may read or write what it lends, all sequences of calls", "why_tests_cant": "A test under an interpreter that checks the rules covers the inputs, sizes and borrow states it happens to use, and cannot run the SIMD implementations; a violation shows up only as a miscompilation.", "anchors": ["crates/base64-simd/src/lib.rs:222-290", "crates/base64-simd/src/forgiving.rs:21-61", "crates/base64-simd/src/ascii.rs:104-147", "crates/base32-simd/src/lib.rs:173-242", "crates/hex-simd/src/lib.rs:145-200", "crates/uuid-simd/src/lib.rs:81-170", "crates/unicode-simd/src/lib.rs:44-110", "crates/vsimd/src/tools.rs:59-90"]}
{"id": "C86", "title": "Exactly which implementations the dispatched functions execute", "statement": "For every function behind the run-time dispatch, the implementations that some machine executes (over all architectures, feature flags, CPUs and call histories) are exactly the scalar fallback and the instruction sets named for it: AVX2, NEON (32-bit ARM with the feature `unstable`, and AArch64) and WebAssembly SIMD for all of them, and in addition SSSE3 for base64 encode/decode/check, base32 check and the endianness swaps; SSE4.1 for base32 encode/decode, hyphenated UUIDs and is_utf32le; SSE2 for hex check, is_ascii and the search for ASCII white space; SSSE3 and SSE2 for hex encode/decode and simple UUIDs. Without run-time detection the choice is the first listed target that the architecture has and the compiler flags enable.", "quantifier": "every compile-time configuration, every CPU whose feature levels are coherent, any number of threads and calls, each of the 18 dispatched functions", "why_tests_cant": "A test run has one CPU and one build; whether an implementation can ever be reached, or is silently never used, concerns all of them.", "anchors": ["crates/vsimd/src/macros.rs:55-393", "crates/vsimd/src/isa.rs:96-301", "crates/base64-simd/src/multiversion.rs:3-37", "crates/base32-simd/src/multiversion.rs:3-28", "crates/hex-simd/src/multiversion.rs:5-30", "crates/uuid-simd/src/multiversion.rs:5-39", "crates/unicode-simd/src/multiversion.rs:3-37"]}
{"id": "C87", "title": "The allocating functions obey the aliasing rules, free what they do not return and return true owners", "statement": "A function that allocates its result or appends to a vector, called as safe Rust calls it, never violates the aliasing rules of Stacked Borrows and never misuses the allocator: it does not access memory that has been deallocated, does not deallocate anything twice or with a wrong size, and does not deallocate what anyone has borrowed. It ends as it does without these rules, with the same memory and result. If it returns Err, everything it allocated has been deallocated. If it returns Ok, the box, string or vector owns a whole allocation, which it may write and deallocate, and nothing else of what was allocated is left; a vector that had to grow has left nothing of its old allocation. Dropping the result succeeds and leaves nothing of the call. The caller can still read the source, and the borrow stacks of memory that was not lent are unchanged.", "quantifier": "the encode, decode, encode_to_string, decode_to_vec and append functions of base64-simd, base32-simd and hex-simd for each of their result types, and forgiving_decode_to_vec; all implementations a dispatcher chooses, all inputs and lengths, all vectors, any extra capacity from the allocator, all states of the borrow stacks in which the caller may lend what it lends", "why_tests_cant": "A leak on an error path, a double free or a deallocation with a wrong size needs the particular input and an instrumented allocator to be seen; an interpreter that checks the aliasing rules cannot run the SIMD implementations.", "anchors": ["crates/vsimd/src/tools.rs:18-42", "crates/vsimd/src/tools.rs:59-97", "crates/base64-simd/src/heap.rs:12-178", "crates/base64-simd/src/forgiving.rs:33-101", "crates/base32-simd/src/heap.rs:12-174", "crates/hex-simd/src/heap.rs:11-172"]}
{"id": "C88", "title": "A call that panics has changed nothing", "statement": "When a safe call panics, the memory at that moment is the memory before the call: nothing has been stored, also not in part, and nothing has been allocated. A caller that catches the panic and goes on is therefore in the same situation as one that did not make the call: the slices it lent and the vector to be appended to hold what they held, and no allocation is lost. This includes the panics that are bugs (the byte swaps with SSSE3, and par_encode with a destination that is too short, which panics before any task is started). Catching panics changes nothing for calls that return.", "quantifier": "all public safe functions on slices, all functions that allocate, and par_encode for any number of threads; all implementations, all inputs, lengths, positions and capacities, any continuation after the panic", "why_tests_cant": "The panics need inputs near the limits of the address space or a processor without AVX2, and tests of a panic check that it happens, not what it left behind.", "anchors": ["crates/base64-simd/src/heap.rs", "crates/base32-simd/src/heap.rs", "crates/hex-simd/src/heap.rs", "crates/base64-simd/src/forgiving.rs:74-101", "crates/base64-simd/src/parallel.rs:16-61", "crates/unicode-simd/src/utf16.rs", "crates/vsimd/src/bswap.rs"]}
{"id": "C89", "title": "No safe program that uses the crates has undefined behaviour", "statement": "A program in safe Rust that owns memory in variables (Box<[u8]>, Box<str>, Vec<u8>, String), makes new ones, reads and writes their content, moves, truncates, converts and drops them, lends slices of them (also of spare capacity) to any of the slice functions, and calls any of the functions that allocate or append, in any order and any number of times, never has undefined behaviour: no uninitialised read, no access out of bounds or to freed memory, no double free or free of a wrong size, no use of a reference that the aliasing rules have made invalid. After every step each variable owns an allocation of its own, its content is initialised, that of a Box<str> or String is UTF-8, variables the step does not change keep their bytes, and all memory that no variable owns has been freed. A call that allocates goes on without a panic unless the result could be longer than isize::MAX.", "quantifier": "all programs of safe steps of any length, all contents, lengths, capacities and slices, all implementations a machine can be given, all machines", "why_tests_cant": "Soundness of a safe API is about all callers; tests and Miri run particular programs, and an unsound interaction needs a particular sequence of calls, lengths and spare capacities.", "anchors": ["crates/base64-simd/src/lib.rs:222-341", "crates/base64-simd/src/heap.rs", "crates/base64-simd/src/forgiving.rs:21-101", "crates/base32-simd/src/lib.rs:173-293", "crates/base32-simd/src/heap.rs", "crates/hex-simd/src/lib.rs:145-294", "crates/hex-simd/src/heap.rs", "crates/uuid-simd/src/lib.rs:81-170", "crates/unicode-simd/src/lib.rs:44-110", "crates/vsimd/src/tools.rs"]}
{"id": "C90", "title": "Programs that use the crates see only the bytes: they do the same on all machines", "statement": "Every call of a slice function ends with the bytes or the error that one table of meanings (RFC 4648 encodings, their inverses, the forgiving decoding, hexadecimal, UUID texts, byte reversal) gives for the bytes of the input and the length of the destination; the bytes are at the start of the destination, what is returned is that part of it, and nothing else has changed. Two calls of the same function with equal inputs, on any two machines with any implementations and any places in memory, both give the same bytes, or both an error, or both panic. A whole program of safe steps (as in C89), whose next step may depend on everything it got to know before (bytes read, lengths, answers of tests, errors), behaves like the same program over variables that simply hold bytes, with no memory, addresses, capacities or implementations; hence on any two machines it sees the same, takes the same branches and has the same bytes in its variables after the same number of steps, provided it makes no calls that leave part of the destination open (a failed decoding into a slice, or a forgiving decoding that shortens). No step panics except a byte swap to a shorter slice and a result too long for the machine.", "quantifier": "all programs (all functions from what was seen to the next step), all lengths of run, all contents, lengths and capacities, all pairs of machines and implementations", "why_tests_cant": "That a program gives the same results with every implementation is a statement about all programs and all pairs of machines; a test compares particular outputs on the machine at hand.", "anchors": ["crates/base64-simd/src/lib.rs:222-341", "crates/base64-simd/src/forgiving.rs:21-101", "crates/base32-simd/src/lib.rs:173-293", "crates/hex-simd/src/lib.rs:145-294", "crates/uuid-simd/src/lib.rs:81-170", "crates/unicode-simd/src/lib.rs:44-110", "crates/vsimd/src/macros.rs"]}
{"id": "C91", "title": "par_encode obeys the aliasing rules for references", "statement": "`par_encode`, called with a source and a destination as safe Rust lends them, obeys the Stacked Borrows rules. Without borrow stacks it has exactly one outcome, whatever the number of threads and whatever they do when. With borrow stacks, however Rayon divides the slices among jobs and whatever the threads do when, no access or reference is undefined behaviour, there is no data race (making a reference counts as an access), and the call ends with that same outcome: the same memory, result, error or panic. Afterwards the borrow stacks of bytes that were not borrowed are as before, those of the source have at most new read-only items, those of the destination have at most new items above the caller's, nothing is left protected, and the returned slice is the topmost, exclusive reference to its bytes. No execution goes on forever or gets stuck.", "quantifier": "all inputs, lengths, numbers of threads, machines, states of the borrow stacks, ways of dividing the work and interleavings of single accesses and retags", "why_tests_cant": "Aliasing violations under some division and schedule do not show in the output, and a tool such as Miri sees only the schedules and lengths it happens to run.", "anchors": ["crates/base64-simd/src/parallel.rs:8-62", "crates/vsimd/src/tools.rs:59-61"]}
{"id": "C92", "title": "No safe program that keeps references, or slices that the crates return, has undefined behaviour", "statement": "A program in safe Rust makes `&` and `&mut` references to its vectors, boxes and strings, to parts of them and to what other references point to, calls any function of the crates with them, `par_encode` included, the functions of `UuidExt` and the UUID formatters too, keeps the slices that these functions return, and uses all of them for as long as the borrow checker allows, over any number of steps. It never has undefined behaviour: no access is out of bounds, to freed or to uninitialised memory, no reference is used that Stacked Borrows has made invalid, and no two threads race. Every live reference stays valid: it points into memory that its variable still owns, may be read through, and written through if it is a `&mut`, and its bytes are initialised. The bytes behind a live `&` do not change, and those behind a live `&mut` change only by steps that write through it or through a name made from it later. A kept slice shows exactly the bytes that the function is specified to return. `UuidExt` returns the UUID that the text denotes, or an error if there is none, and the formatters return the text of the UUID, and neither changes anything. The program goes on unless the step is one of those documented to panic, and nothing is leaked.", "quantifier": "all programs, all numbers of steps, variables and references, all functions, implementations, machines, lengths and contents, and all interleavings of the threads of par_encode", "why_tests_cant": "The interplay of long-lived references and later calls depends on the whole history of a program; tests and Miri see only single histories.", "anchors": ["crates/base64-simd/src/lib.rs:222-341", "crates/base64-simd/src/parallel.rs:8-62", "crates/base64-simd/src/heap.rs", "crates/base64-simd/src/forgiving.rs:21-101", "crates/base32-simd/src/lib.rs:173-293", "crates/hex-simd/src/lib.rs:145-294", "crates/uuid-simd/src/lib.rs:81-170", "crates/uuid-simd/src/ext.rs:50-74", "crates/uuid-simd/src/ext.rs:95-164", "crates/unicode-simd/src/lib.rs:44-110", "crates/vsimd/src/tools.rs"]}
{"id": "C93", "title": "The slice functions obey the aliasing rules of Tree Borrows as well", "statement": "Rust has not settled on its aliasing rules for references; Tree Borrows is the successor of Stacked Borrows that Miri offers. Under these rules, too, every slice function of the crates, called with slices that its caller may read and write through, has no undefined behaviour and does what it does without aliasing rules. To the references that existed before the call, the call looks like nothing at all for bytes it did not borrow, like at most one read through the lender's reference for each byte borrowed with `&`, and like at most one read or one write through the lender's reference for each byte borrowed with `&mut` or `Out`; nothing stays protected; a returned slice is a new reference derived from the destination's and may be written through. Hence the caller keeps the rights it lent and may make any number of calls in any order.", "quantifier": "all 23 slice functions, all implementations, machines, lengths and contents, all trees of references, permissions and protected references in which the caller may read the source and write the destination, all sequences of calls", "why_tests_cant": "Whether an access is allowed depends on the whole tree of references and on the permission of each of them for each byte; tests do not see aliasing rules, and Miri only single executions, mostly under Stacked Borrows and without SIMD.", "anchors": ["crates/base64-simd/src/lib.rs:222-290", "crates/base64-simd/src/forgiving.rs:21-101", "crates/base32-simd/src/lib.rs:173-245", "crates/hex-simd/src/lib.rs:145-215", "crates/uuid-simd/src/lib.rs:81-170", "crates/unicode-simd/src/lib.rs:44-110", "crates/vsimd/src/tools.rs:59-90"]}
{"id": "C94", "title": "The allocating functions obey Tree Borrows, free what they do not return and return true owners", "statement": "A function that allocates its result or appends to a vector, called as safe Rust calls it, never violates the aliasing rules of Tree Borrows and never misuses the allocator: it does not access memory that has been deallocated, and deallocates nothing twice, with a wrong size, or while a function up the stack has a reference to any part of it. It ends as it does without these rules, with the same memory and result. If it returns Err, everything it allocated has been deallocated. If it returns Ok, the box, string or vector owns a whole allocation, which it may write and deallocate, and nothing else of what was allocated is left; a vector that had to grow has left nothing of its old allocation. Dropping the result succeeds and leaves nothing of the call. To the references that existed before, the call looks like at most one read of each byte of the source and one read or write of each byte of the vector; the caller can still read the source.", "quantifier": "the encode, decode, encode_to_string, decode_to_vec and append functions of base64-simd, base32-simd and hex-simd for each of their result types, and forgiving_decode_to_vec; all implementations a dispatcher chooses, all inputs and lengths, all vectors, any extra capacity from the allocator, all trees of references and permissions in which the caller may lend what it lends", "why_tests_cant": "A leak on an error path, a double free or a deallocation with a wrong size needs the particular input and an instrumented allocator to be seen; an interpreter that checks the aliasing rules cannot run the SIMD implementations.", "anchors": ["crates/vsimd/src/tools.rs:18-42", "crates/vsimd/src/tools.rs:59-97", "crates/base64-simd/src/heap.rs:12-178", "crates/base64-simd/src/forgiving.rs:33-101", "crates/base32-simd/src/heap.rs:12-174", "crates/hex-simd/src/heap.rs:11-172"]}
{"id": "C95", "title": "No safe program that keeps references has undefined behaviour by the rules of Tree Borrows", "statement": "A program in safe Rust makes `&` and `&mut` references to its vectors, boxes and strings, to parts of them and to what other references point to, calls functions of the crates with them, the functions of `UuidExt` and the UUID formatters too, keeps the slices that these functions return, and uses all of them for as long as the borrow checker allows, over any number of steps. By the rules of Tree Borrows too it never has undefined behaviour: no access is out of bounds, to freed or to uninitialised memory, and no reference is used whose permission has been lost. Every live reference stays valid: it points into memory that its variable still owns, may be read through, and written through if it is a `&mut`, and its bytes are initialised. The bytes behind a live `&` do not change, and those behind a live `&mut` change only by steps that write through it or through a name made later. A kept slice shows exactly the bytes that the function is specified to return. `UuidExt` returns the UUID that the text denotes, or an error if there is none, and the formatters return the text of the UUID, and neither changes anything. The program goes on unless the step is a byte swap to a shorter slice, a `par_encode` to a slice that is too short or with too many threads, or an allocation that could be too large, and nothing is leaked. All this holds whatever the threads of `par_encode` do when.", "quantifier": "all programs, all numbers of steps, variables and references, all functions, implementations, machines, lengths and contents, all numbers of threads and all interleavings of par_encode", "why_tests_cant": "Permissions in a borrow tree depend on all accesses before; tests and Miri see only single histories, and Miri does not run most of the SIMD implementations.", "anchors": ["crates/base64-simd/src/lib.rs:222-341", "crates/base64-simd/src/parallel.rs:16-61", "crates/base64-simd/src/heap.rs", "crates/base64-simd/src/forgiving.rs:21-101", "crates/base32-simd/src/lib.rs:173-293", "crates/hex-simd/src/lib.rs:145-294", "crates/uuid-simd/src/lib.rs:81-170", "crates/uuid-simd/src/ext.rs:50-74", "crates/uuid-simd/src/ext.rs:95-164", "crates/unicode-simd/src/lib.rs:44-110", "crates/vsimd/src/tools.rs"]}
{"id": "C96", "title": "par_encode obeys the aliasing rules of Tree Borrows", "statement": "`par_encode`, called with a source and a destination as safe Rust lends them, obeys the Tree Borrows rules. Without borrow trees it has exactly one outcome, whatever the number of threads and whatever they do when. With borrow trees, however Rayon divides the slices among jobs and whatever the threads do when, no access, reference or return is undefined behaviour, there is no data race (making a reference and ending the protection of one count as accesses), and the call ends with that same outcome: the same memory, result, error or panic. Afterwards the tags that existed before see no change of bytes that were not borrowed, at most one read through the lender's tag of the source, and at most one read or write through the lender's tag of the destination; nothing is left protected; and the returned slice is a new reference, made from the destination's tag, that may be written through. No execution goes on forever or gets stuck.", "quantifier": "all inputs, lengths, numbers of threads, machines, states of the borrow trees, ways of dividing the work and interleavings of single accesses, retags and returns", "why_tests_cant": "Aliasing violations under some division and schedule do not show in the output. The accesses that end protection happen at returns, so whether they clash with another thread depends on the schedule; Miri sees only the schedules and lengths it happens to run.", "anchors": ["crates/base64-simd/src/parallel.rs:8-62", "crates/vsimd/src/tools.rs:59-61"]}
{"id": "C97", "title": "UuidExt and the UUID formatters obey the aliasing rules of Tree Borrows", "statement": "`UuidExt::parse`, `parse_simple`, `parse_hyphenated` on a `&[u8]`, and `LowerHex`, `UpperHex`, `Display` of `Simple` and `Hyphenated`, obey the Tree Borrows rules: lent bytes that may be read, they have no undefined behaviour and do not panic. They return the UUID that the text denotes, or an error if it denotes none, or hand the formatter the text of the UUID. All memory that existed is as it was; the tags that existed see no change of bytes that were not borrowed and at most one read through the lender's tag of those that were; nothing is left protected; the local variables are gone. The caller may go on with any other bytes it can lend through the same tags.", "quantifier": "all texts, all UUID values, all implementations a machine may run, all states of memory and borrow trees, all positions in memory", "why_tests_cant": "A dangling or stale pointer to the local `MaybeUninit`, or a reference that is still protected, does not show in the output.", "anchors": ["crates/uuid-simd/src/ext.rs:50-74", "crates/uuid-simd/src/ext.rs:95-164", "crates/uuid-simd/src/lib.rs:81-170"]}
{"id": "C98", "title": "UuidExt and the UUID formatters obey the aliasing rules of Stacked Borrows", "statement": "`UuidExt::parse`, `parse_simple`, `parse_hyphenated` on a `&[u8]`, and `LowerHex`, `UpperHex`, `Display` of `Simple` and `Hyphenated`, obey the Stacked Borrows rules: lent bytes that may be read, they have no undefined behaviour and do not panic. They return the UUID that the text denotes, or an error if it denotes none, or hand the formatter the text of the UUID. All memory that existed is as it was; the borrow stacks of bytes that were not borrowed are unchanged and those of the borrowed bytes have at most been read and got new items for reading; nothing is left protected; the local variables are gone. The caller may go on with any other bytes it can lend through the same tags.", "quantifier": "all texts, all UUID values, all implementations a machine may run, all states of memory and borrow stacks, all positions in memory", "why_tests_cant": "A dangling or stale pointer to the local `MaybeUninit`, or a reference that is still protected, does not show in the output.", "anchors": ["crates/uuid-simd/src/ext.rs:50-74", "crates/uuid-simd/src/ext.rs:95-164", "crates/uuid-simd/src/lib.rs:81-170"]}
{"id": "C99", "title": "Programs that use the crates and keep references see the same in every execution, and the same as over plain memory", "statement": "Take any program of safe Rust that makes vectors and strings, keeps `&` and `&mut` references into them (also those that the crates return), reads and writes through them, and calls the functions of the crates, including `par_encode` and those of uuid-simd's `ext.rs`; which step it takes may depend on all it got to know: bytes read, lengths and answers returned, errors. Two executions of it that have taken as many steps have got to know the same and have the same variables, references and memory, whatever the threads of `par_encode` did when. If one execution panics at a step, none gets past that step. Each step does, and shows, exactly what it does and shows over memory without borrow stacks: the rules about references decide whether a program has defined behaviour, and never what it computes.", "quantifier": "all adaptive programs of safe Rust over the modelled steps, all lengths of executions, all machines, all ways of dividing the work of `par_encode` and all interleavings", "why_tests_cant": "Tests run some programs on some schedules. That a result depends on the schedule, on where memory was allocated, or on which references are live would show only for particular programs.", "anchors": ["crates/base64-simd/src/lib.rs:222-341", "crates/base64-simd/src/parallel.rs:8-62", "crates/base64-simd/src/heap.rs", "crates/base64-simd/src/forgiving.rs:21-101", "crates/base32-simd/src/lib.rs:173-293", "crates/hex-simd/src/lib.rs:145-294", "crates/uuid-simd/src/lib.rs:81-170", "crates/uuid-simd/src/ext.rs:50-74", "crates/uuid-simd/src/ext.rs:95-164", "crates/unicode-simd/src/lib.rs:44-110", "crates/vsimd/src/tools.rs"]}
{"id": "C100", "title": "Programs that use the crates and keep references see and do the same under Stacked Borrows and under Tree Borrows", "statement": "Take any program of safe Rust as in C99. What it can get to know, and what its variables, references and memory can then be, is the same whether references are checked by Stacked Borrows or by Tree Borrows: every execution under one has its counterpart under the other. After as many steps in an execution under each, the program has got to know the same, has the same variables, references and memory, and safe Rust allows exactly the same steps next; each of these steps shows the same and leaves the same, or panics, in both. Every execution under Tree Borrows is also one over plain memory, without tags or trees, and two of them that have taken as many steps agree.", "quantifier": "all adaptive programs of safe Rust over the modelled steps, all lengths of executions, all machines, all ways of dividing the work of `par_encode` and all interleavings", "why_tests_cant": "Tests, also under Miri, run some programs under one set of rules for references. That the crates give the same answers under both sets for every program cannot be sampled.", "anchors": ["crates/base64-simd/src/lib.rs:222-341", "crates/base64-simd/src/parallel.rs:8-62", "crates/base64-simd/src/heap.rs", "crates/base64-simd/src/forgiving.rs:21-101", "crates/base32-simd/src/lib.rs:173-293", "crates/hex-simd/src/lib.rs:145-294", "crates/uuid-simd/src/lib.rs:81-170", "crates/uuid-simd/src/ext.rs:50-74", "crates/uuid-simd/src/ext.rs:95-164", "crates/unicode-simd/src/lib.rs:44-110", "crates/vsimd/src/tools.rs"]}
{"id": "C101", "title": "Programs that use the crates and keep references see the same on all machines", "statement": "Take any program of safe Rust as in C99, that calls the functions of the crates on variables and on references it keeps, and let it run on two machines that may differ in target, compile-time features, CPU, word size, in what their allocators give, in the implementations that are chosen and in how `par_encode` divides its work. After as many steps on both, it has got to know the same: every value returned and every byte read. Its variables then have the same types, lengths and bytes, and the same references are live, to the same parts of the same variables, with the same bytes behind them. This holds as long as no step panics, and no step decodes slices so that the rest of the destination is left unspecified, that is with an error or by `forgiving_decode`.", "quantifier": "all adaptive programs of safe Rust over the modelled steps, all lengths of executions, all pairs of machines, all capacities, all numbers of threads, all ways of dividing the work of `par_encode` and all interleavings", "why_tests_cant": "A test runs on one machine, with one implementation, one allocator and one schedule. That programs give the same on all machines is a statement about pairs of executions.", "anchors": ["crates/base64-simd/src/lib.rs:222-341", "crates/base64-simd/src/parallel.rs:8-62", "crates/base64-simd/src/heap.rs", "crates/base64-simd/src/forgiving.rs:21-101", "crates/base32-simd/src/lib.rs:173-293", "crates/hex-simd/src/lib.rs:145-294", "crates/uuid-simd/src/lib.rs:81-170", "crates/uuid-simd/src/ext.rs:50-74", "crates/uuid-simd/src/ext.rs:95-164", "crates/unicode-simd/src/lib.rs:44-110", "crates/vsimd/src/tools.rs"]}
{"id": "C102", "title": "Programs that use the crates and keep references see the same on all machines under either set of rules for references", "statement": "Take any program of safe Rust as in C101, and let it run on two machines, each under Stacked Borrows or under Tree Borrows. After as many steps on both, it has got to know the same, its variables have the same types, lengths and bytes, and the same references are live, to the same parts of the same variables, with the same bytes behind them. On one machine, the program can get to know, and have, exactly the same under both sets of rules. As in C101, the runs are those in which no step panics or leaves bytes of a destination unspecified.", "quantifier": "all adaptive programs of safe Rust over the modelled steps, all lengths of executions, all pairs of machines, both aliasing models, all capacities, all numbers of threads, all ways of dividing the work of `par_encode` and all interleavings", "why_tests_cant": "It is a statement about pairs of executions on different machines under different rules; a test has one of each.", "anchors": ["crates/base64-simd/src/lib.rs:222-341", "crates/base64-simd/src/parallel.rs:8-62", "crates/base64-simd/src/heap.rs", "crates/base64-simd/src/forgiving.rs:21-101", "crates/base32-simd/src/lib.rs:173-293", "crates/hex-simd/src/lib.rs:145-294", "crates/uuid-simd/src/lib.rs:81-170", "crates/uuid-simd/src/ext.rs:50-74", "crates/uuid-simd/src/ext.rs:95-164", "crates/unicode-simd/src/lib.rs:44-110", "crates/vsimd/src/tools.rs"]}
