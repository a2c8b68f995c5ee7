import Verif.Lemmas.Ren
import Verif.Model.Forgiving
import Verif.Model.Base32
/-
The functions of base64-simd and base32-simd with the slices in renamed allocations.
-/
namespace Simd
open Vs
variable {ρ : Nat → Nat}

namespace Base64

theorem ren_encode_bits24 (pb po qb qo : Nat) (cs) : RenE ρ (encode_bits24 ⟨pb, po⟩ ⟨qb, qo⟩ cs) (encode_bits24 ⟨ρ pb, po⟩ ⟨ρ qb, qo⟩ cs) := by
  unfold encode_bits24; ren [] []
theorem ren_encode_bits48 (pb po qb qo : Nat) (cs) : RenE ρ (encode_bits48 ⟨pb, po⟩ ⟨qb, qo⟩ cs) (encode_bits48 ⟨ρ pb, po⟩ ⟨ρ qb, qo⟩ cs) := by
  unfold encode_bits48; ren [] []
theorem ren_encode_extra (pb po qb qo : Nat) (e cs pad) : RenE ρ (encode_extra e ⟨pb, po⟩ ⟨qb, qo⟩ cs pad) (encode_extra e ⟨ρ pb, po⟩ ⟨ρ qb, qo⟩ cs pad) := by
  unfold encode_extra; ren [] []
theorem ren_encode_inner (cs) : ∀ k pb po qb qo, Ren ρ (RelPP ρ) (encode_inner cs k ⟨pb, po⟩ ⟨qb, qo⟩) (encode_inner cs k ⟨ρ pb, po⟩ ⟨ρ qb, qo⟩) 
  | 0, pb, po, qb, qo => by unfold encode_inner; ren [] []
  | k + 1, pb, po, qb, qo => by have ih := ren_encode_inner cs k; unfold encode_inner; ren [ren_encode_bits48, ih] []
theorem ren_encode_loop24 (cs) (pb po qb qo : Nat) (n : Nat) :
    Ren ρ (RelPPN ρ) (encode_loop24 cs ⟨pb, po⟩ ⟨qb, qo⟩ n) (encode_loop24 cs ⟨ρ pb, po⟩ ⟨ρ qb, qo⟩ n) := by
  unfold encode_loop24; ren [ren_encode_loop24] [ren_encode_inner]
termination_by n
theorem ren_encode_loop6 (cs) (pb po qb qo : Nat) (n : Nat) :
    Ren ρ (RelPPN ρ) (encode_loop6 cs ⟨pb, po⟩ ⟨qb, qo⟩ n) (encode_loop6 cs ⟨ρ pb, po⟩ ⟨ρ qb, qo⟩ n) := by
  unfold encode_loop6; ren [ren_encode_bits48, ren_encode_loop6] []
termination_by n
theorem ren_encode_loop3 (cs e) (pb po qb qo : Nat) :
    Ren ρ (RelPP ρ) (encode_loop3 cs e ⟨pb, po⟩ ⟨qb, qo⟩) (encode_loop3 cs e ⟨ρ pb, po⟩ ⟨ρ qb, qo⟩) := by
  unfold encode_loop3; ren [ren_encode_bits24, ren_encode_loop3] []
termination_by e - po
decreasing_by omega
theorem ren_encode_fallback (pb po qb qo : Nat) (n config) : RenE ρ (encode_fallback ⟨pb, po⟩ n ⟨qb, qo⟩ config) (encode_fallback ⟨ρ pb, po⟩ n ⟨ρ qb, qo⟩ config) := by
  unfold encode_fallback; ren [ren_encode_extra] [ren_encode_loop24, ren_encode_loop6, ren_encode_loop3]
theorem ren_encode_head (cs) : ∀ k pb po qb qo n, Ren ρ (RelPPN ρ) (encode_head cs k ⟨pb, po⟩ ⟨qb, qo⟩ n) (encode_head cs k ⟨ρ pb, po⟩ ⟨ρ qb, qo⟩ n) 
  | 0, pb, po, qb, qo, n => by unfold encode_head; ren [] []
  | k + 1, pb, po, qb, qo, n => by have ih := ren_encode_head cs k; unfold encode_head; ren [ren_encode_bits24, ih] []
theorem ren_encode_loop_x2 (s lut) (pb po qb qo : Nat) (n : Nat) :
    Ren ρ (RelPPN ρ) (encode_loop_x2 s lut ⟨pb, po⟩ ⟨qb, qo⟩ n) (encode_loop_x2 s lut ⟨ρ pb, po⟩ ⟨ρ qb, qo⟩ n) := by
  unfold encode_loop_x2; ren [ren_encode_loop_x2] [Ren.psub]
termination_by n
theorem ren_encode_simd1 (pb po qb qo : Nat) (s n k) : Ren ρ (RelPPN ρ) (encode_simd1 s ⟨pb, po⟩ ⟨qb, qo⟩ n k) (encode_simd1 s ⟨ρ pb, po⟩ ⟨ρ qb, qo⟩ n k) := by
  unfold encode_simd1; ren [ren_encode_loop_x2] [ren_encode_head]
theorem ren_encode_simd2 (pb po qb qo : Nat) (s n k) : Ren ρ (RelPPN ρ) (encode_simd2 s ⟨pb, po⟩ ⟨qb, qo⟩ n k) (encode_simd2 s ⟨ρ pb, po⟩ ⟨ρ qb, qo⟩ n k) := by
  unfold encode_simd2; ren [] []
theorem ren_encode_auto (pb po qb qo : Nat) (i n config) : RenE ρ (encode_auto i ⟨pb, po⟩ n ⟨qb, qo⟩ config) (encode_auto i ⟨ρ pb, po⟩ n ⟨ρ qb, qo⟩ config) := by
  unfold encode_auto encode_simd; ren [ren_encode_fallback] [ren_encode_simd1, ren_encode_simd2]
theorem ren_count_pad (xb xo xn : Nat) : RenE ρ (count_pad ⟨⟨xb, xo⟩, xn⟩) (count_pad ⟨⟨ρ xb, xo⟩, xn⟩) := by
  unfold count_pad; ren [] []
theorem ren_data_length (xb xo xn : Nat) (config) : RenE ρ (data_length ⟨⟨xb, xo⟩, xn⟩ config) (data_length ⟨⟨ρ xb, xo⟩, xn⟩ config) := by
  unfold data_length; ren [ren_count_pad] []
theorem ren_decoded_length (xb xo xn : Nat) (config) : RenE ρ (decoded_length ⟨⟨xb, xo⟩, xn⟩ config) (decoded_length ⟨⟨ρ xb, xo⟩, xn⟩ config) := by
  unfold decoded_length; ren [ren_data_length] []
theorem ren_ascii8 (pb po qb qo : Nat) (t) : RenE ρ (decode_ascii8 ⟨pb, po⟩ (some ⟨qb, qo⟩) t) (decode_ascii8 ⟨ρ pb, po⟩ (some ⟨ρ qb, qo⟩) t) := by
  unfold decode_ascii8; ren [] []
theorem ren_ascii4 (pb po qb qo : Nat) (t) : RenE ρ (decode_ascii4 ⟨pb, po⟩ (some ⟨qb, qo⟩) t) (decode_ascii4 ⟨ρ pb, po⟩ (some ⟨ρ qb, qo⟩) t) := by
  unfold decode_ascii4; ren [] []
theorem ren_dextra (pb po qb qo : Nat) (e t f) : RenE ρ (decode_extra e ⟨pb, po⟩ (some ⟨qb, qo⟩) t f) (decode_extra e ⟨ρ pb, po⟩ (some ⟨ρ qb, qo⟩) t f) := by
  unfold decode_extra; ren [] []
theorem ren_check8 (pb po : Nat) (t) : RenE ρ (decode_ascii8 ⟨pb, po⟩ none t) (decode_ascii8 ⟨ρ pb, po⟩ none t) := by
  unfold decode_ascii8; ren [] []
theorem ren_check4 (pb po : Nat) (t) : RenE ρ (decode_ascii4 ⟨pb, po⟩ none t) (decode_ascii4 ⟨ρ pb, po⟩ none t) := by
  unfold decode_ascii4; ren [] []
theorem ren_cextra (pb po : Nat) (e t f) : RenE ρ (decode_extra e ⟨pb, po⟩ none t f) (decode_extra e ⟨ρ pb, po⟩ none t f) := by
  unfold decode_extra; ren [] []
theorem ren_decode_loop8 (t) (pb po qb qo : Nat) (n : Nat) :
    Ren ρ (RelPPN ρ) (decode_loop8 t ⟨pb, po⟩ ⟨qb, qo⟩ n) (decode_loop8 t ⟨ρ pb, po⟩ ⟨ρ qb, qo⟩ n) := by
  unfold decode_loop8; ren [ren_ascii8, ren_decode_loop8] []
termination_by n
theorem ren_decode_loop4 (t e) (pb po qb qo : Nat) :
    Ren ρ (RelPP ρ) (decode_loop4 t e ⟨pb, po⟩ ⟨qb, qo⟩) (decode_loop4 t e ⟨ρ pb, po⟩ ⟨ρ qb, qo⟩) := by
  unfold decode_loop4; ren [ren_ascii4, ren_decode_loop4] []
termination_by e - po
decreasing_by omega
theorem ren_decode_fallback (pb po qb qo : Nat) (n config) : RenE ρ (decode_fallback ⟨pb, po⟩ ⟨qb, qo⟩ n config) (decode_fallback ⟨ρ pb, po⟩ ⟨ρ qb, qo⟩ n config) := by
  unfold decode_fallback; ren [ren_dextra] [ren_decode_loop8, ren_decode_loop4]
theorem ren_decode_loop32 (s c d) (pb po qb qo : Nat) (n : Nat) :
    Ren ρ (RelPPN ρ) (decode_loop32 s c d ⟨pb, po⟩ ⟨qb, qo⟩ n) (decode_loop32 s c d ⟨ρ pb, po⟩ ⟨ρ qb, qo⟩ n) := by
  unfold decode_loop32; ren [ren_decode_loop32] []
termination_by n
theorem ren_decode_auto (pb po qb qo : Nat) (i n config) : RenE ρ (decode_auto i ⟨pb, po⟩ ⟨qb, qo⟩ n config) (decode_auto i ⟨ρ pb, po⟩ ⟨ρ qb, qo⟩ n config) := by
  unfold decode_auto decode_simd; ren [ren_decode_fallback] [ren_decode_loop32]
theorem ren_check_loop8 (t) (pb po : Nat) (n : Nat) :
    Ren ρ (RelPN ρ) (check_loop8 t ⟨pb, po⟩ n) (check_loop8 t ⟨ρ pb, po⟩ n) := by
  unfold check_loop8; ren [ren_check8, ren_check_loop8] []
termination_by n
theorem ren_check_loop4 (t) (pb po : Nat) (n : Nat) :
    Ren ρ (RelPN ρ) (check_loop4 t ⟨pb, po⟩ n) (check_loop4 t ⟨ρ pb, po⟩ n) := by
  unfold check_loop4; ren [ren_check4, ren_check_loop4] []
termination_by n
theorem ren_check_fallback (pb po : Nat) (n config) : RenE ρ (check_fallback ⟨pb, po⟩ n config) (check_fallback ⟨ρ pb, po⟩ n config) := by
  unfold check_fallback; ren [ren_cextra] [ren_check_loop8, ren_check_loop4]
theorem ren_check_loop32 (s c) (pb po : Nat) (n : Nat) :
    Ren ρ (RelPN ρ) (check_loop32 s c ⟨pb, po⟩ n) (check_loop32 s c ⟨ρ pb, po⟩ n) := by
  unfold check_loop32; ren [ren_check_loop32] []
termination_by n
theorem ren_check_auto (pb po : Nat) (i n config) : RenE ρ (check_auto i ⟨pb, po⟩ n config) (check_auto i ⟨ρ pb, po⟩ n config) := by
  unfold check_auto check_simd; ren [ren_check_fallback] [ren_check_loop32]
theorem ren_check (xb xo xn : Nat) (i config) : RenE ρ (check i config ⟨⟨xb, xo⟩, xn⟩) (check i config ⟨⟨ρ xb, xo⟩, xn⟩) := by
  unfold check; ren [ren_decoded_length, ren_check_auto] []
theorem ren_encode (srcb srco srcn : Nat) (dstb dsto dstn : Nat) (P i config) : Ren ρ (RelS ρ) (encode P i config ⟨⟨srcb, srco⟩, srcn⟩ ⟨⟨dstb, dsto⟩, dstn⟩) (encode P i config ⟨⟨ρ srcb, srco⟩, srcn⟩ ⟨⟨ρ dstb, dsto⟩, dstn⟩) := by
  unfold encode; ren [ren_encode_auto] []
theorem ren_decode (srcb srco srcn : Nat) (dstb dsto dstn : Nat) (i config) : Ren ρ (RelS ρ) (decode i config ⟨⟨srcb, srco⟩, srcn⟩ ⟨⟨dstb, dsto⟩, dstn⟩) (decode i config ⟨⟨ρ srcb, srco⟩, srcn⟩ ⟨⟨ρ dstb, dsto⟩, dstn⟩) := by
  unfold decode; ren [ren_decoded_length, ren_decode_auto] []
theorem ren_decode_inplace (xb xo xn : Nat) (i config) : Ren ρ (RelS ρ) (decode_inplace i config ⟨⟨xb, xo⟩, xn⟩) (decode_inplace i config ⟨⟨ρ xb, xo⟩, xn⟩) := by
  unfold decode_inplace; ren [ren_decoded_length, ren_decode_auto] []
theorem ren_find_short_loop (e) (pb po : Nat) :
    Ren ρ (RelP ρ) (find_short_loop e ⟨pb, po⟩) (find_short_loop e ⟨ρ pb, po⟩) := by
  unfold find_short_loop lookup_ascii_whitespace; ren [ren_find_short_loop] []
termination_by e - po
decreasing_by omega
theorem ren_find_non_ascii_whitespace_short (pb po : Nat) (n) : RenE ρ (find_non_ascii_whitespace_short ⟨pb, po⟩ n) (find_non_ascii_whitespace_short ⟨ρ pb, po⟩ n) := by
  unfold find_non_ascii_whitespace_short; ren [] [ren_find_short_loop]
theorem ren_find_loop32 (s e) (pb po : Nat) :
    Ren ρ (RelP ρ) (find_loop32 s e ⟨pb, po⟩) (find_loop32 s e ⟨ρ pb, po⟩) := by
  unfold find_loop32; ren [ren_find_loop32] []
termination_by e - po
decreasing_by omega
theorem ren_find_loop16 (s e) (pb po : Nat) :
    Ren ρ (RelP ρ) (find_loop16 s e ⟨pb, po⟩) (find_loop16 s e ⟨ρ pb, po⟩) := by
  unfold find_loop16; ren [ren_find_loop16] []
termination_by e - po
decreasing_by omega
theorem ren_find_simd_part (pb po : Nat) (s n) : Ren ρ (RelP ρ) (find_simd_part s ⟨pb, po⟩ n) (find_simd_part s ⟨ρ pb, po⟩ n) := by
  unfold find_simd_part; ren [ren_find_loop16] [ren_find_loop32]
theorem ren_find_non_ascii_whitespace (xb xo xn : Nat) (i) : RenE ρ (find_non_ascii_whitespace i ⟨⟨xb, xo⟩, xn⟩) (find_non_ascii_whitespace i ⟨⟨ρ xb, xo⟩, xn⟩) := by
  unfold find_non_ascii_whitespace find_non_ascii_whitespace_simd; ren [ren_find_non_ascii_whitespace_short] [ren_find_simd_part]
theorem ren_remove_loop (e) (pb po qb qo : Nat) :
    Ren ρ (RelP ρ) (remove_loop e ⟨pb, po⟩ ⟨qb, qo⟩) (remove_loop e ⟨ρ pb, po⟩ ⟨ρ qb, qo⟩) := by
  unfold remove_loop lookup_ascii_whitespace; ren [ren_remove_loop] []
termination_by e - po
decreasing_by all_goals (omega)
theorem ren_remove_ascii_whitespace_fallback (pb po qb qo : Nat) (n) : RenE ρ (remove_ascii_whitespace_fallback ⟨pb, po⟩ n ⟨qb, qo⟩) (remove_ascii_whitespace_fallback ⟨ρ pb, po⟩ n ⟨ρ qb, qo⟩) := by
  unfold remove_ascii_whitespace_fallback; ren [] [ren_remove_loop]
theorem ren_remove_inplace (xb xo xn : Nat) (fi) :
    Ren ρ (RelS ρ) (remove_ascii_whitespace_inplace fi ⟨⟨xb, xo⟩, xn⟩) (remove_ascii_whitespace_inplace fi ⟨⟨ρ xb, xo⟩, xn⟩) := by
  unfold remove_ascii_whitespace_inplace; ren [ren_find_non_ascii_whitespace, ren_remove_ascii_whitespace_fallback] []
theorem ren_forgiving_inplace (xb xo xn : Nat) (fi di) : Ren ρ (RelS ρ) (forgiving_decode_inplace fi di ⟨⟨xb, xo⟩, xn⟩) (forgiving_decode_inplace fi di ⟨⟨ρ xb, xo⟩, xn⟩) := by
  unfold forgiving_decode_inplace; ren [ren_decode_inplace] [ren_remove_inplace]
theorem ren_copy_nonoverlapping (sb so db dd n : Nat) : RenE ρ (copy_nonoverlapping ⟨sb, so⟩ ⟨db, dd⟩ n) (copy_nonoverlapping ⟨ρ sb, so⟩ ⟨ρ db, dd⟩ n) := by
  unfold copy_nonoverlapping
  dsimp only
  split_ifs with h _ h'
  · exact Ren.ub_l
  · exact Ren.ub_l
  · exact Ren.ub_r fun hi => h ⟨hi h'.1, h'.2⟩
  · ren [] []
theorem ren_forgiving (srcb srco srcn : Nat) (dstb dsto dstn : Nat) (fi di) :
    Ren ρ (RelS ρ) (forgiving_decode fi di ⟨⟨srcb, srco⟩, srcn⟩ ⟨⟨dstb, dsto⟩, dstn⟩) (forgiving_decode fi di ⟨⟨ρ srcb, srco⟩, srcn⟩ ⟨⟨ρ dstb, dsto⟩, dstn⟩) := by
  unfold forgiving_decode copy_and_decode
  ren [ren_copy_nonoverlapping, ren_find_non_ascii_whitespace, ren_decode, ren_remove_ascii_whitespace_fallback, ren_decode_inplace] []

end Base64

namespace Base32

theorem ren_encode_bits (qb qo : Nat) (N cs x) : RenE ρ (encode_bits N ⟨qb, qo⟩ cs x) (encode_bits N ⟨ρ qb, qo⟩ cs x) := by
  unfold encode_bits; ren [] []
theorem ren_read_be_bytes (pb po : Nat) (w N) : RenE ρ (read_be_bytes w N ⟨pb, po⟩) (read_be_bytes w N ⟨ρ pb, po⟩) := by
  unfold read_be_bytes; ren [] []
theorem ren_write_pad (qb qo : Nat) (i b) : RenE ρ (write_pad ⟨qb, qo⟩ i b) (write_pad ⟨ρ qb, qo⟩ i b) := by
  unfold write_pad; ren [] []
theorem ren_encode_extra (pb po qb qo : Nat) (w e cs pad) : RenE ρ (encode_extra w ⟨pb, po⟩ e ⟨qb, qo⟩ cs pad) (encode_extra w ⟨ρ pb, po⟩ e ⟨ρ qb, qo⟩ cs pad) := by
  unfold encode_extra; ren [ren_read_be_bytes, ren_encode_bits, ren_write_pad] []
theorem ren_encode_loop5 (w cs e) (pb po qb qo : Nat) :
    Ren ρ (RelPP ρ) (encode_loop5 w cs e ⟨pb, po⟩ ⟨qb, qo⟩) (encode_loop5 w cs e ⟨ρ pb, po⟩ ⟨ρ qb, qo⟩) := by
  unfold encode_loop5; ren [ren_read_be_bytes, ren_encode_bits, ren_encode_loop5] []
termination_by e - po
decreasing_by omega
theorem ren_encode_fallback (pb po qb qo : Nat) (w n k pad) : RenE ρ (encode_fallback w ⟨pb, po⟩ n ⟨qb, qo⟩ k pad) (encode_fallback w ⟨ρ pb, po⟩ n ⟨ρ qb, qo⟩ k pad) := by
  unfold encode_fallback; ren [ren_encode_extra] [ren_encode_loop5]
theorem ren_encode_head (w cs) : ∀ k pb po qb qo, Ren ρ (RelPP ρ) (encode_head w cs k ⟨pb, po⟩ ⟨qb, qo⟩) (encode_head w cs k ⟨ρ pb, po⟩ ⟨ρ qb, qo⟩) 
  | 0, pb, po, qb, qo => by unfold encode_head; ren [] []
  | k + 1, pb, po, qb, qo => by have ih := ren_encode_head w cs k; unfold encode_head; ren [ren_read_be_bytes, ren_encode_bits, ih] []
theorem ren_encode_loop20 (s lut) (pb po qb qo : Nat) (n : Nat) :
    Ren ρ (RelPPN ρ) (encode_loop20 s lut ⟨pb, po⟩ ⟨qb, qo⟩ n) (encode_loop20 s lut ⟨ρ pb, po⟩ ⟨ρ qb, qo⟩ n) := by
  unfold encode_loop20; ren [ren_encode_loop20] [Ren.psub]
termination_by n
theorem ren_encode_simd1 (pb po qb qo : Nat) (w s n k) : Ren ρ (RelPPN ρ) (encode_simd1 w s ⟨pb, po⟩ ⟨qb, qo⟩ n k) (encode_simd1 w s ⟨ρ pb, po⟩ ⟨ρ qb, qo⟩ n k) := by
  unfold encode_simd1; ren [ren_encode_loop20] [ren_encode_head]
theorem ren_encode_auto (pb po qb qo : Nat) (w i n k pad) : RenE ρ (encode_auto w i ⟨pb, po⟩ n ⟨qb, qo⟩ k pad) (encode_auto w i ⟨ρ pb, po⟩ n ⟨ρ qb, qo⟩ k pad) := by
  unfold encode_auto encode_simd; ren [ren_encode_fallback] [ren_encode_simd1]
theorem ren_data_length (xb xo xn : Nat) (b) : RenE ρ (data_length ⟨⟨xb, xo⟩, xn⟩ b) (data_length ⟨⟨ρ xb, xo⟩, xn⟩ b) := by
  unfold data_length; ren [] []
theorem ren_decoded_length (xb xo xn : Nat) (b) : RenE ρ (decoded_length ⟨⟨xb, xo⟩, xn⟩ b) (decoded_length ⟨⟨ρ xb, xo⟩, xn⟩ b) := by
  unfold decoded_length; ren [ren_data_length] []
theorem ren_decode_bits (pb po : Nat) (N t) : RenE ρ (decode_bits N ⟨pb, po⟩ t) (decode_bits N ⟨ρ pb, po⟩ t) := by
  unfold decode_bits; ren [] []
theorem ren_write_be_bytes (qb qo : Nat) (w N x) : RenE ρ (write_be_bytes w N ⟨qb, qo⟩ x) (write_be_bytes w N ⟨ρ qb, qo⟩ x) := by
  unfold write_be_bytes; ren [] []
theorem ren_dextra (pb po qb qo : Nat) (w e t) : RenE ρ (decode_extra w ⟨pb, po⟩ e (some ⟨qb, qo⟩) t) (decode_extra w ⟨ρ pb, po⟩ e (some ⟨ρ qb, qo⟩) t) := by
  unfold decode_extra write_opt; ren [ren_decode_bits, ren_write_be_bytes] []
theorem ren_cextra (pb po : Nat) (w e t) : RenE ρ (decode_extra w ⟨pb, po⟩ e none t) (decode_extra w ⟨ρ pb, po⟩ e none t) := by
  unfold decode_extra write_opt; ren [ren_decode_bits] []
theorem ren_decode_loop8 (w t e) (pb po qb qo : Nat) :
    Ren ρ (RelPP ρ) (decode_loop8 w t e ⟨pb, po⟩ ⟨qb, qo⟩) (decode_loop8 w t e ⟨ρ pb, po⟩ ⟨ρ qb, qo⟩) := by
  unfold decode_loop8; ren [ren_decode_bits, ren_write_be_bytes, ren_decode_loop8] []
termination_by e - po
decreasing_by omega
theorem ren_decode_fallback (pb po qb qo : Nat) (w n k) : RenE ρ (decode_fallback w ⟨pb, po⟩ n ⟨qb, qo⟩ k) (decode_fallback w ⟨ρ pb, po⟩ n ⟨ρ qb, qo⟩ k) := by
  unfold decode_fallback; ren [ren_dextra] [ren_decode_loop8]
theorem ren_decode_loop32 (s c d) (pb po qb qo : Nat) (n : Nat) :
    Ren ρ (RelPPN ρ) (decode_loop32 s c d ⟨pb, po⟩ ⟨qb, qo⟩ n) (decode_loop32 s c d ⟨ρ pb, po⟩ ⟨ρ qb, qo⟩ n) := by
  unfold decode_loop32; ren [ren_decode_loop32] []
termination_by n
theorem ren_decode_auto (pb po qb qo : Nat) (w i n k) : RenE ρ (decode_auto w i ⟨pb, po⟩ n ⟨qb, qo⟩ k) (decode_auto w i ⟨ρ pb, po⟩ n ⟨ρ qb, qo⟩ k) := by
  unfold decode_auto decode_simd; ren [ren_decode_fallback] [ren_decode_loop32]
theorem ren_check_loop8 (t e) (pb po : Nat) :
    Ren ρ (RelP ρ) (check_loop8 t e ⟨pb, po⟩) (check_loop8 t e ⟨ρ pb, po⟩) := by
  unfold check_loop8; ren [ren_decode_bits, ren_check_loop8] []
termination_by e - po
decreasing_by omega
theorem ren_check_fallback (pb po : Nat) (n k) : RenE ρ (check_fallback ⟨pb, po⟩ n k) (check_fallback ⟨ρ pb, po⟩ n k) := by
  unfold check_fallback; ren [ren_cextra] [ren_check_loop8]
theorem ren_check_loop32 (s c e) (pb po : Nat) :
    Ren ρ (RelP ρ) (check_loop32 s c e ⟨pb, po⟩) (check_loop32 s c e ⟨ρ pb, po⟩) := by
  unfold check_loop32; ren [ren_check_loop32] []
termination_by e - po
decreasing_by omega
theorem ren_check_auto (pb po : Nat) (i n k) : RenE ρ (check_auto i ⟨pb, po⟩ n k) (check_auto i ⟨ρ pb, po⟩ n k) := by
  unfold check_auto check_simd; ren [ren_check_fallback] [ren_check_loop32]
theorem ren_check (xb xo xn : Nat) (i config) : RenE ρ (check i config ⟨⟨xb, xo⟩, xn⟩) (check i config ⟨⟨ρ xb, xo⟩, xn⟩) := by
  unfold check; ren [ren_decoded_length, ren_check_auto] []
theorem ren_encode (srcb srco srcn : Nat) (dstb dsto dstn : Nat) (P w i config) : Ren ρ (RelS ρ) (encode P w i config ⟨⟨srcb, srco⟩, srcn⟩ ⟨⟨dstb, dsto⟩, dstn⟩) (encode P w i config ⟨⟨ρ srcb, srco⟩, srcn⟩ ⟨⟨ρ dstb, dsto⟩, dstn⟩) := by
  unfold encode; ren [ren_encode_auto] []
theorem ren_decode (srcb srco srcn : Nat) (dstb dsto dstn : Nat) (w i config) : Ren ρ (RelS ρ) (decode w i config ⟨⟨srcb, srco⟩, srcn⟩ ⟨⟨dstb, dsto⟩, dstn⟩) (decode w i config ⟨⟨ρ srcb, srco⟩, srcn⟩ ⟨⟨ρ dstb, dsto⟩, dstn⟩) := by
  unfold decode; ren [ren_decoded_length, ren_decode_auto] []
theorem ren_decode_inplace (xb xo xn : Nat) (w i config) : Ren ρ (RelS ρ) (decode_inplace w i config ⟨⟨xb, xo⟩, xn⟩) (decode_inplace w i config ⟨⟨ρ xb, xo⟩, xn⟩) := by
  unfold decode_inplace; ren [ren_decoded_length, ren_decode_auto] []

end Base32
end Simd
