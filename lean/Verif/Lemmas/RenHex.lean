import Verif.Lemmas.Ren
import Verif.Model.Hex
import Verif.Model.Uuid
/-
The functions of hex-simd and uuid-simd with the slices in renamed allocations.
-/
namespace Simd

section Hex
open Hex Vs
variable {ρ : Nat → Nat}

namespace Hex

theorem ren_check_short_loop (e) (pb po : Nat) (f) : RenE ρ (check_short_loop e ⟨pb, po⟩ f) (check_short_loop e ⟨ρ pb, po⟩ f) := by
  unfold check_short_loop; ren [ren_check_short_loop] []
termination_by e - po
decreasing_by omega
theorem ren_check_short (pb po : Nat) (n) : RenE ρ (check_short ⟨pb, po⟩ n) (check_short ⟨ρ pb, po⟩ n) := by
  unfold check_short; ren [ren_check_short_loop] []
theorem ren_check_short_sc_loop (e) (pb po : Nat) : RenE ρ (check_short_sc_loop e ⟨pb, po⟩) (check_short_sc_loop e ⟨ρ pb, po⟩) := by
  unfold check_short_sc_loop; ren [ren_check_short_sc_loop] []
termination_by e - po
decreasing_by omega
theorem ren_check_short_sc (pb po : Nat) (n) : RenE ρ (check_short_sc ⟨pb, po⟩ n) (check_short_sc ⟨ρ pb, po⟩ n) := by
  unfold check_short_sc; ren [ren_check_short_sc_loop] []
theorem ren_check_loop32 (s e) (pb po : Nat) : Ren ρ (RelP ρ) (check_loop32 s e ⟨pb, po⟩) (check_loop32 s e ⟨ρ pb, po⟩) := by
  unfold check_loop32; ren [ren_check_loop32] []
termination_by e - po
decreasing_by omega
theorem ren_check_loop16 (s e) (pb po : Nat) : Ren ρ (RelP ρ) (check_loop16 s e ⟨pb, po⟩) (check_loop16 s e ⟨ρ pb, po⟩) := by
  unfold check_loop16; ren [ren_check_loop16] []
termination_by e - po
decreasing_by omega
theorem ren_check_tail (pb po : Nat) (s n) : RenE ρ (check_tail s ⟨pb, po⟩ n) (check_tail s ⟨ρ pb, po⟩ n) := by
  unfold check_tail; ren [ren_check_short, ren_check_short_sc] []
theorem ren_check_simd (pb po : Nat) (s n) : RenE ρ (check_simd s ⟨pb, po⟩ n) (check_simd s ⟨ρ pb, po⟩ n) := by
  unfold check_simd; ren [ren_check_tail] [ren_check_loop32, ren_check_loop16]
theorem ren_check_auto (pb po : Nat) (i n) : RenE ρ (check_auto i ⟨pb, po⟩ n) (check_auto i ⟨ρ pb, po⟩ n) := by
  unfold check_auto check_fallback; ren [ren_check_short, ren_check_simd] []

theorem ren_encode_bits (pb po qb qo : Nat) (cs) : RenE ρ (encode_bits ⟨pb, po⟩ ⟨qb, qo⟩ cs) (encode_bits ⟨ρ pb, po⟩ ⟨ρ qb, qo⟩ cs) := by
  unfold encode_bits; ren [] []
theorem ren_encode_short_loop (e) (pb po qb qo : Nat) (cs) : RenE ρ (encode_short_loop e ⟨pb, po⟩ ⟨qb, qo⟩ cs) (encode_short_loop e ⟨ρ pb, po⟩ ⟨ρ qb, qo⟩ cs) := by
  unfold encode_short_loop; ren [ren_encode_bits, ren_encode_short_loop] []
termination_by e - po
decreasing_by omega
theorem ren_encode_short (pb po qb qo : Nat) (n cs) : RenE ρ (encode_short ⟨pb, po⟩ n ⟨qb, qo⟩ cs) (encode_short ⟨ρ pb, po⟩ n ⟨ρ qb, qo⟩ cs) := by
  unfold encode_short; ren [ren_encode_short_loop] []
theorem ren_encode_long_inner (cs) : ∀ k pb po qb qo, Ren ρ (RelPP ρ) (encode_long_inner cs k ⟨pb, po⟩ ⟨qb, qo⟩) (encode_long_inner cs k ⟨ρ pb, po⟩ ⟨ρ qb, qo⟩) 
  | 0, pb, po, qb, qo => by unfold encode_long_inner; ren [] []
  | k + 1, pb, po, qb, qo => by have ih := ren_encode_long_inner cs k; unfold encode_long_inner; ren [ren_encode_bits, ih] []
theorem ren_encode_long_loop (e) (pb po qb qo : Nat) (cs) :
    Ren ρ (RelPP ρ) (encode_long_loop e ⟨pb, po⟩ ⟨qb, qo⟩ cs) (encode_long_loop e ⟨ρ pb, po⟩ ⟨ρ qb, qo⟩ cs) := by
  unfold encode_long_loop; ren [ren_encode_long_loop] [ren_encode_long_inner]
termination_by e - po
decreasing_by omega
theorem ren_encode_long (pb po qb qo : Nat) (n c) : RenE ρ (encode_long ⟨pb, po⟩ n ⟨qb, qo⟩ c) (encode_long ⟨ρ pb, po⟩ n ⟨ρ qb, qo⟩ c) := by
  unfold encode_long; ren [ren_encode_short] [ren_encode_long_loop]
theorem ren_encode_loop32 (s lut e) (pb po qb qo : Nat) :
    Ren ρ (RelPP ρ) (encode_loop32 s lut e ⟨pb, po⟩ ⟨qb, qo⟩) (encode_loop32 s lut e ⟨ρ pb, po⟩ ⟨ρ qb, qo⟩) := by
  unfold encode_loop32; ren [ren_encode_loop32] []
termination_by e - po
decreasing_by omega
theorem ren_encode_v256 (pb po qb qo : Nat) (s n c) : RenE ρ (encode_simd_v256 s ⟨pb, po⟩ n ⟨qb, qo⟩ c) (encode_simd_v256 s ⟨ρ pb, po⟩ n ⟨ρ qb, qo⟩ c) := by
  unfold encode_simd_v256; ren [ren_encode_short] [ren_encode_loop32]
theorem ren_encode_loop16 (s lut e) (pb po qb qo : Nat) :
    Ren ρ (RelPP ρ) (encode_loop16 s lut e ⟨pb, po⟩ ⟨qb, qo⟩) (encode_loop16 s lut e ⟨ρ pb, po⟩ ⟨ρ qb, qo⟩) := by
  unfold encode_loop16; ren [ren_encode_loop16] []
termination_by e - po
decreasing_by omega
theorem ren_encode_v128 (pb po qb qo : Nat) (s n c) : RenE ρ (encode_simd_v128 s ⟨pb, po⟩ n ⟨qb, qo⟩ c) (encode_simd_v128 s ⟨ρ pb, po⟩ n ⟨ρ qb, qo⟩ c) := by
  unfold encode_simd_v128; ren [ren_encode_short] [ren_encode_loop16]
theorem ren_encode_loop_sse2 (o e) (pb po qb qo : Nat) :
    Ren ρ (RelPP ρ) (encode_loop_sse2 o e ⟨pb, po⟩ ⟨qb, qo⟩) (encode_loop_sse2 o e ⟨ρ pb, po⟩ ⟨ρ qb, qo⟩) := by
  unfold encode_loop_sse2; ren [ren_encode_loop_sse2] []
termination_by e - po
decreasing_by omega
theorem ren_encode_sse2 (pb po qb qo : Nat) (n c) : RenE ρ (encode_simd_sse2 ⟨pb, po⟩ n ⟨qb, qo⟩ c) (encode_simd_sse2 ⟨ρ pb, po⟩ n ⟨ρ qb, qo⟩ c) := by
  unfold encode_simd_sse2; ren [ren_encode_short] [ren_encode_loop_sse2]
theorem ren_encode_auto (pb po qb qo : Nat) (i n c) : RenE ρ (encode_auto i ⟨pb, po⟩ n ⟨qb, qo⟩ c) (encode_auto i ⟨ρ pb, po⟩ n ⟨ρ qb, qo⟩ c) := by
  unfold encode_auto encode_fallback encode_simd; ren [ren_encode_long, ren_encode_sse2, ren_encode_v256, ren_encode_v128] []

theorem ren_decode_bits (pb po qb qo : Nat) : RenE ρ (decode_bits ⟨pb, po⟩ ⟨qb, qo⟩) (decode_bits ⟨ρ pb, po⟩ ⟨ρ qb, qo⟩) := by
  unfold decode_bits; ren [] []
theorem ren_decode_short_loop1 (e) (pb po qb qo : Nat) : RenE ρ (decode_short_loop1 e ⟨pb, po⟩ ⟨qb, qo⟩) (decode_short_loop1 e ⟨ρ pb, po⟩ ⟨ρ qb, qo⟩) := by
  unfold decode_short_loop1; ren [ren_decode_bits, ren_decode_short_loop1] []
termination_by e - po
decreasing_by omega
theorem ren_decode_short_loop2 (e) (pb po qb qo : Nat) (f) : RenE ρ (decode_short_loop2 e ⟨pb, po⟩ ⟨qb, qo⟩ f) (decode_short_loop2 e ⟨ρ pb, po⟩ ⟨ρ qb, qo⟩ f) := by
  unfold decode_short_loop2; ren [ren_decode_bits, ren_decode_short_loop2] []
termination_by e - po
decreasing_by omega
theorem ren_decode_short (pb po qb qo : Nat) (s n) : RenE ρ (decode_short s ⟨pb, po⟩ n ⟨qb, qo⟩) (decode_short s ⟨ρ pb, po⟩ n ⟨ρ qb, qo⟩) := by
  unfold decode_short; ren [ren_decode_short_loop1, ren_decode_short_loop2] []
theorem ren_decode_long_inner : ∀ k pb po qb qo f, RenE ρ (decode_long_inner k ⟨pb, po⟩ ⟨qb, qo⟩ f) (decode_long_inner k ⟨ρ pb, po⟩ ⟨ρ qb, qo⟩ f) 
  | 0, pb, po, qb, qo, f => by unfold decode_long_inner; ren [] []
  | k + 1, pb, po, qb, qo, f => by have ih := ren_decode_long_inner k; unfold decode_long_inner; ren [ren_decode_bits, ih] []
theorem ren_decode_long_loop (e) (pb po qb qo : Nat) :
    Ren ρ (RelPP ρ) (decode_long_loop e ⟨pb, po⟩ ⟨qb, qo⟩) (decode_long_loop e ⟨ρ pb, po⟩ ⟨ρ qb, qo⟩) := by
  unfold decode_long_loop; ren [ren_decode_long_inner, ren_decode_long_loop] []
termination_by e - po
decreasing_by omega
theorem ren_decode_long (pb po qb qo : Nat) (n) : RenE ρ (decode_long ⟨pb, po⟩ n ⟨qb, qo⟩) (decode_long ⟨ρ pb, po⟩ n ⟨ρ qb, qo⟩) := by
  unfold decode_long; ren [ren_decode_short] [ren_decode_long_loop]
theorem ren_decode16 (pb po qb qo : Nat) (s) : RenE ρ (decode16 s ⟨pb, po⟩ ⟨qb, qo⟩) (decode16 s ⟨ρ pb, po⟩ ⟨ρ qb, qo⟩) := by
  unfold decode16; ren [] []
theorem ren_decode32 (pb po qb qo : Nat) (s) : RenE ρ (decode32 s ⟨pb, po⟩ ⟨qb, qo⟩) (decode32 s ⟨ρ pb, po⟩ ⟨ρ qb, qo⟩) := by
  unfold decode32; ren [] []
theorem ren_decode_loop64 (s e) (pb po qb qo : Nat) :
    Ren ρ (RelPP ρ) (decode_loop64 s e ⟨pb, po⟩ ⟨qb, qo⟩) (decode_loop64 s e ⟨ρ pb, po⟩ ⟨ρ qb, qo⟩) := by
  unfold decode_loop64; ren [ren_decode_loop64] []
termination_by e - po
decreasing_by omega
theorem ren_decode_tail16 (pb po qb qo : Nat) (s n) : RenE ρ (decode_tail16 s ⟨pb, po⟩ n ⟨qb, qo⟩) (decode_tail16 s ⟨ρ pb, po⟩ n ⟨ρ qb, qo⟩) := by
  unfold decode_tail16; ren [ren_decode16, ren_decode_short] []
theorem ren_decode_v256 (pb po qb qo : Nat) (s n) : RenE ρ (decode_simd_v256 s ⟨pb, po⟩ n ⟨qb, qo⟩) (decode_simd_v256 s ⟨ρ pb, po⟩ n ⟨ρ qb, qo⟩) := by
  unfold decode_simd_v256; ren [ren_decode16, ren_decode32, ren_decode_tail16] [ren_decode_loop64]
theorem ren_decode_loop32 (s e) (pb po qb qo : Nat) :
    Ren ρ (RelPP ρ) (decode_loop32 s e ⟨pb, po⟩ ⟨qb, qo⟩) (decode_loop32 s e ⟨ρ pb, po⟩ ⟨ρ qb, qo⟩) := by
  unfold decode_loop32; ren [ren_decode32, ren_decode_loop32] []
termination_by e - po
decreasing_by omega
theorem ren_decode_v128 (pb po qb qo : Nat) (s n) : RenE ρ (decode_simd_v128 s ⟨pb, po⟩ n ⟨qb, qo⟩) (decode_simd_v128 s ⟨ρ pb, po⟩ n ⟨ρ qb, qo⟩) := by
  unfold decode_simd_v128; ren [ren_decode_tail16] [ren_decode_loop32]
theorem ren_decode_loop_sse2 (e) (pb po qb qo : Nat) :
    Ren ρ (RelPP ρ) (decode_loop_sse2 e ⟨pb, po⟩ ⟨qb, qo⟩) (decode_loop_sse2 e ⟨ρ pb, po⟩ ⟨ρ qb, qo⟩) := by
  unfold decode_loop_sse2; ren [ren_decode_loop_sse2] []
termination_by e - po
decreasing_by omega
theorem ren_decode_sse2 (pb po qb qo : Nat) (n) : RenE ρ (decode_simd_sse2 ⟨pb, po⟩ n ⟨qb, qo⟩) (decode_simd_sse2 ⟨ρ pb, po⟩ n ⟨ρ qb, qo⟩) := by
  unfold decode_simd_sse2; ren [ren_decode_short] [ren_decode_loop_sse2]
theorem ren_decode_auto (pb po qb qo : Nat) (i n) : RenE ρ (decode_auto i ⟨pb, po⟩ n ⟨qb, qo⟩) (decode_auto i ⟨ρ pb, po⟩ n ⟨ρ qb, qo⟩) := by
  unfold decode_auto decode_fallback decode_simd; ren [ren_decode_long, ren_decode_sse2, ren_decode_v256, ren_decode_v128] []

theorem ren_encode (srcb srco srcn : Nat) (dstb dsto dstn : Nat) (P i c) : Ren ρ (RelS ρ) (encode P i ⟨⟨srcb, srco⟩, srcn⟩ ⟨⟨dstb, dsto⟩, dstn⟩ c) (encode P i ⟨⟨ρ srcb, srco⟩, srcn⟩ ⟨⟨ρ dstb, dsto⟩, dstn⟩ c) := by
  unfold encode; ren [ren_encode_auto] []
theorem ren_decode (srcb srco srcn : Nat) (dstb dsto dstn : Nat) (i) : Ren ρ (RelS ρ) (decode i ⟨⟨srcb, srco⟩, srcn⟩ ⟨⟨dstb, dsto⟩, dstn⟩) (decode i ⟨⟨ρ srcb, srco⟩, srcn⟩ ⟨⟨ρ dstb, dsto⟩, dstn⟩) := by
  unfold decode; ren [ren_decode_auto] []
theorem ren_decode_inplace (xb xo xn : Nat) (i) : Ren ρ (RelS ρ) (decode_inplace i ⟨⟨xb, xo⟩, xn⟩) (decode_inplace i ⟨⟨ρ xb, xo⟩, xn⟩) := by
  unfold decode_inplace; ren [ren_decode_auto] []
theorem ren_encode_raw (pb po qb qo : Nat) (P i n c) : RenE ρ (encode_raw P i ⟨pb, po⟩ n ⟨qb, qo⟩ c) (encode_raw P i ⟨ρ pb, po⟩ n ⟨ρ qb, qo⟩ c) := by
  unfold encode_raw; ren [ren_encode_auto] []
theorem ren_decode_raw (pb po qb qo : Nat) (i n) : RenE ρ (decode_raw i ⟨pb, po⟩ n ⟨qb, qo⟩) (decode_raw i ⟨ρ pb, po⟩ n ⟨ρ qb, qo⟩) := by
  unfold decode_raw; ren [ren_decode_auto] []

end Hex

namespace Uuid

theorem ren_check_hyphens (pb po : Nat) : RenE ρ (check_hyphens ⟨pb, po⟩) (check_hyphens ⟨ρ pb, po⟩) := by
  unfold check_hyphens; ren [] []
theorem ren_parse_loop (pb po qb qo : Nat) : ∀ is j f, RenE ρ (parse_hyphenated_loop ⟨pb, po⟩ ⟨qb, qo⟩ is j f) (parse_hyphenated_loop ⟨ρ pb, po⟩ ⟨ρ qb, qo⟩ is j f) 
  | [], j, f => by unfold parse_hyphenated_loop; ren [] []
  | i :: is, j, f => by have ih := ren_parse_loop pb po qb qo is; unfold parse_hyphenated_loop; ren [ih] []
theorem ren_parse_simple_auto (pb po qb qo : Nat) (i) : RenE ρ (parse_simple_auto i ⟨pb, po⟩ ⟨qb, qo⟩) (parse_simple_auto i ⟨ρ pb, po⟩ ⟨ρ qb, qo⟩) := by
  unfold parse_simple_auto parse_simple_fallback parse_simple_simd parse_simple_simd_sse2; ren [] []
theorem ren_parse_hyphenated_auto (pb po qb qo : Nat) (i) : RenE ρ (parse_hyphenated_auto i ⟨pb, po⟩ ⟨qb, qo⟩) (parse_hyphenated_auto i ⟨ρ pb, po⟩ ⟨ρ qb, qo⟩) := by
  unfold parse_hyphenated_auto parse_hyphenated_fallback parse_hyphenated_simd; ren [ren_check_hyphens, ren_parse_loop] []
theorem ren_format_group (pb po qb qo : Nat) (lut i) (j e : Nat) : RenE ρ (format_group lut ⟨pb, po⟩ ⟨qb, qo⟩ i j e) (format_group lut ⟨ρ pb, po⟩ ⟨ρ qb, qo⟩ i j e) := by
  unfold format_group; ren [ren_format_group] []
termination_by e - j
theorem ren_format_groups (pb po qb qo : Nat) (lut) : ∀ gs g i, RenE ρ (format_groups lut ⟨pb, po⟩ ⟨qb, qo⟩ gs g i) (format_groups lut ⟨ρ pb, po⟩ ⟨ρ qb, qo⟩ gs g i) 
  | [], g, i => by unfold format_groups; ren [] []
  | (a, b) :: gs, g, i => by have ih := ren_format_groups pb po qb qo lut gs; unfold format_groups; ren [ren_format_group, ih] []
theorem ren_format_simple_auto (pb po qb qo : Nat) (i c) : RenE ρ (format_simple_auto i ⟨pb, po⟩ ⟨qb, qo⟩ c) (format_simple_auto i ⟨ρ pb, po⟩ ⟨ρ qb, qo⟩ c) := by
  unfold format_simple_auto format_simple_fallback format_simple_simd format_simple_simd_sse2; ren [] []
theorem ren_format_hyphenated_auto (pb po qb qo : Nat) (i c) : RenE ρ (format_hyphenated_auto i ⟨pb, po⟩ ⟨qb, qo⟩ c) (format_hyphenated_auto i ⟨ρ pb, po⟩ ⟨ρ qb, qo⟩ c) := by
  unfold format_hyphenated_auto format_hyphenated_fallback format_hyphenated_simd; ren [ren_format_groups] []
theorem ren_hyphenated_start (srcb srco srcn : Nat) : Ren ρ (RelP ρ) (hyphenated_start ⟨⟨srcb, srco⟩, srcn⟩) (hyphenated_start ⟨⟨ρ srcb, srco⟩, srcn⟩) := by
  unfold hyphenated_start; ren [] []
theorem ren_parse (srcb srco srcn : Nat) (qb qo : Nat) (si hi) : Ren ρ (RelS ρ) (parse si hi ⟨⟨srcb, srco⟩, srcn⟩ ⟨qb, qo⟩) (parse si hi ⟨⟨ρ srcb, srco⟩, srcn⟩ ⟨ρ qb, qo⟩) := by
  unfold parse; ren [ren_parse_simple_auto, ren_parse_hyphenated_auto] [ren_hyphenated_start]
theorem ren_parse_simple (srcb srco srcn : Nat) (qb qo : Nat) (i) : Ren ρ (RelS ρ) (parse_simple i ⟨⟨srcb, srco⟩, srcn⟩ ⟨qb, qo⟩) (parse_simple i ⟨⟨ρ srcb, srco⟩, srcn⟩ ⟨ρ qb, qo⟩) := by
  unfold parse_simple; ren [ren_parse_simple_auto] []
theorem ren_parse_hyphenated (srcb srco srcn : Nat) (qb qo : Nat) (i) : Ren ρ (RelS ρ) (parse_hyphenated i ⟨⟨srcb, srco⟩, srcn⟩ ⟨qb, qo⟩) (parse_hyphenated i ⟨⟨ρ srcb, srco⟩, srcn⟩ ⟨ρ qb, qo⟩) := by
  unfold parse_hyphenated; ren [ren_parse_hyphenated_auto] []
theorem ren_format_simple (pb po qb qo : Nat) (i c) : Ren ρ (RelS ρ) (format_simple i ⟨pb, po⟩ ⟨qb, qo⟩ c) (format_simple i ⟨ρ pb, po⟩ ⟨ρ qb, qo⟩ c) := by
  unfold format_simple; ren [ren_format_simple_auto] []
theorem ren_format_hyphenated (pb po qb qo : Nat) (i c) : Ren ρ (RelS ρ) (format_hyphenated i ⟨pb, po⟩ ⟨qb, qo⟩ c) (format_hyphenated i ⟨ρ pb, po⟩ ⟨ρ qb, qo⟩ c) := by
  unfold format_hyphenated; ren [ren_format_hyphenated_auto] []

end Uuid
end Hex
end Simd
