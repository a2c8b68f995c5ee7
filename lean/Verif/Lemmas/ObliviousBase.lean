import Verif.Lemmas.Oblivious
import Verif.Model.Base64
import Verif.Model.Base32
/-
The functions of base64-simd and base32-simd make the same accesses whatever bytes they load.
-/
namespace Simd
open Vs

namespace Base64

theorem obl_encode_bits24 (p q : Ptr) (cs) : Obl' (encode_bits24 p q cs) (encode_bits24 p q cs) := by
  unfold encode_bits24; obl [] []
theorem obl_encode_bits48 (p q : Ptr) (cs) : Obl' (encode_bits48 p q cs) (encode_bits48 p q cs) := by
  unfold encode_bits48; obl [] []
theorem obl_encode_extra (p q : Ptr) (e cs pad) : Obl' (encode_extra e p q cs pad) (encode_extra e p q cs pad) := by
  unfold encode_extra; obl [] []
theorem obl_encode_inner (cs) : ∀ k p q, Obl Eq (encode_inner cs k p q) (encode_inner cs k p q)
  | 0, p, q => by unfold encode_inner; obl [] []
  | k + 1, p, q => by have ih := obl_encode_inner cs k; unfold encode_inner; obl [obl_encode_bits48, ih] []
theorem obl_encode_loop24 (cs) (p q : Ptr) (n : Nat) :
    Obl Eq (encode_loop24 cs p q n) (encode_loop24 cs p q n) := by
  unfold encode_loop24; obl [obl_encode_loop24] [obl_encode_inner]
termination_by n
theorem obl_encode_loop6 (cs) (p q : Ptr) (n : Nat) :
    Obl Eq (encode_loop6 cs p q n) (encode_loop6 cs p q n) := by
  unfold encode_loop6; obl [obl_encode_bits48, obl_encode_loop6] []
termination_by n
theorem obl_encode_loop3 (cs e) (p q : Ptr) :
    Obl Eq (encode_loop3 cs e p q) (encode_loop3 cs e p q) := by
  unfold encode_loop3; obl [obl_encode_bits24, obl_encode_loop3] []
termination_by e - p.off
decreasing_by simp only [Ptr.add]; omega
theorem obl_encode_fallback (p q : Ptr) (n config) : Obl' (encode_fallback p n q config) (encode_fallback p n q config) := by
  unfold encode_fallback; obl [obl_encode_extra] [obl_encode_loop24, obl_encode_loop6, obl_encode_loop3]
theorem obl_encode_head (cs) : ∀ k p q n, Obl Eq (encode_head cs k p q n) (encode_head cs k p q n)
  | 0, p, q, n => by unfold encode_head; obl [] []
  | k + 1, p, q, n => by have ih := obl_encode_head cs k; unfold encode_head; obl [obl_encode_bits24, ih] []
theorem obl_encode_loop_x2 (s lut) (p q : Ptr) (n : Nat) :
    Obl Eq (encode_loop_x2 s lut p q n) (encode_loop_x2 s lut p q n) := by
  unfold encode_loop_x2; obl [obl_encode_loop_x2] [Obl.psub]
termination_by n
theorem obl_encode_simd1 (p q : Ptr) (s n k) : Obl Eq (encode_simd1 s p q n k) (encode_simd1 s p q n k) := by
  unfold encode_simd1; obl [obl_encode_loop_x2] [obl_encode_head]
theorem obl_encode_simd2 (p q : Ptr) (s n k) : Obl Eq (encode_simd2 s p q n k) (encode_simd2 s p q n k) := by
  unfold encode_simd2; obl [] []
theorem obl_encode_auto (p q : Ptr) (i n config) : Obl' (encode_auto i p n q config) (encode_auto i p n q config) := by
  unfold encode_auto encode_simd; obl [obl_encode_fallback] [obl_encode_simd1, obl_encode_simd2]
theorem obl_count_pad (d : Slice) : Obl' (count_pad d) (count_pad d) := by
  unfold count_pad; obl [] []
theorem obl_data_length (d : Slice) (config) : Obl' (data_length d config) (data_length d config) := by
  unfold data_length; obl [obl_count_pad] []
theorem obl_decoded_length (d : Slice) (config) : Obl' (decoded_length d config) (decoded_length d config) := by
  unfold decoded_length; obl [obl_data_length] []
theorem obl_decode_ascii8 (p) (q : Option Ptr) (t) : Obl' (decode_ascii8 p q t) (decode_ascii8 p q t) := by
  unfold decode_ascii8; obl [] []
theorem obl_decode_ascii4 (p) (q : Option Ptr) (t) : Obl' (decode_ascii4 p q t) (decode_ascii4 p q t) := by
  unfold decode_ascii4; obl [] []
theorem obl_decode_extra (p) (q : Option Ptr) (e t f) : Obl' (decode_extra e p q t f) (decode_extra e p q t f) := by
  unfold decode_extra; obl [] []
theorem obl_decode_loop8 (t) (p q : Ptr) (n : Nat) :
    Obl Eq (decode_loop8 t p q n) (decode_loop8 t p q n) := by
  unfold decode_loop8; obl [obl_decode_ascii8, obl_decode_loop8] []
termination_by n
theorem obl_decode_loop4 (t e) (p q : Ptr) :
    Obl Eq (decode_loop4 t e p q) (decode_loop4 t e p q) := by
  unfold decode_loop4; obl [obl_decode_ascii4, obl_decode_loop4] []
termination_by e - p.off
decreasing_by simp only [Ptr.add]; omega
theorem obl_decode_fallback (p q : Ptr) (n config) : Obl' (decode_fallback p q n config) (decode_fallback p q n config) := by
  unfold decode_fallback; obl [obl_decode_extra] [obl_decode_loop8, obl_decode_loop4]
theorem obl_decode_loop32 (s c d) (p q : Ptr) (n : Nat) :
    Obl Eq (decode_loop32 s c d p q n) (decode_loop32 s c d p q n) := by
  unfold decode_loop32; obl [obl_decode_loop32] []
termination_by n
theorem obl_decode_auto (p q : Ptr) (i n config) : Obl' (decode_auto i p q n config) (decode_auto i p q n config) := by
  unfold decode_auto decode_simd; obl [obl_decode_fallback] [obl_decode_loop32]
theorem obl_check_loop8 (t) (p : Ptr) (n : Nat) :
    Obl Eq (check_loop8 t p n) (check_loop8 t p n) := by
  unfold check_loop8; obl [obl_decode_ascii8, obl_check_loop8] []
termination_by n
theorem obl_check_loop4 (t) (p : Ptr) (n : Nat) :
    Obl Eq (check_loop4 t p n) (check_loop4 t p n) := by
  unfold check_loop4; obl [obl_decode_ascii4, obl_check_loop4] []
termination_by n
theorem obl_check_fallback (p : Ptr) (n config) : Obl' (check_fallback p n config) (check_fallback p n config) := by
  unfold check_fallback; obl [obl_decode_extra] [obl_check_loop8, obl_check_loop4]
theorem obl_check_loop32 (s c) (p : Ptr) (n : Nat) :
    Obl Eq (check_loop32 s c p n) (check_loop32 s c p n) := by
  unfold check_loop32; obl [obl_check_loop32] []
termination_by n
theorem obl_check_auto (p : Ptr) (i n config) : Obl' (check_auto i p n config) (check_auto i p n config) := by
  unfold check_auto check_simd; obl [obl_check_fallback] [obl_check_loop32]
theorem obl_encode (src dst : Slice) (P i config) : Obl' (encode P i config src dst) (encode P i config src dst) := by
  unfold encode; obl [obl_encode_auto] []

end Base64

namespace Base32

theorem obl_encode_bits (q : Ptr) (N cs x y) : Obl' (encode_bits N q cs x) (encode_bits N q cs y) := by
  unfold encode_bits; obl [] []
theorem obl_read_be_bytes (p : Ptr) (w N) : Obl' (read_be_bytes w N p) (read_be_bytes w N p) := by
  unfold read_be_bytes; obl [] []
theorem obl_write_pad (q : Ptr) (i b) : Obl' (write_pad q i b) (write_pad q i b) := by
  unfold write_pad; obl [] []
theorem obl_encode_extra (p q : Ptr) (w e cs pad) : Obl' (encode_extra w p e q cs pad) (encode_extra w p e q cs pad) := by
  unfold encode_extra; obl [obl_read_be_bytes, obl_encode_bits, obl_write_pad] []
theorem obl_encode_loop5 (w cs e) (p q : Ptr) :
    Obl Eq (encode_loop5 w cs e p q) (encode_loop5 w cs e p q) := by
  unfold encode_loop5; obl [obl_read_be_bytes, obl_encode_bits, obl_encode_loop5] []
termination_by e - p.off
decreasing_by simp only [Ptr.add]; omega
theorem obl_encode_fallback (p q : Ptr) (w n k pad) : Obl' (encode_fallback w p n q k pad) (encode_fallback w p n q k pad) := by
  unfold encode_fallback; obl [obl_encode_extra] [obl_encode_loop5]
theorem obl_encode_head (w cs) : ∀ k p q, Obl Eq (encode_head w cs k p q) (encode_head w cs k p q)
  | 0, p, q => by unfold encode_head; obl [] []
  | k + 1, p, q => by have ih := obl_encode_head w cs k; unfold encode_head; obl [obl_read_be_bytes, obl_encode_bits, ih] []
theorem obl_encode_loop20 (s lut) (p q : Ptr) (n : Nat) :
    Obl Eq (encode_loop20 s lut p q n) (encode_loop20 s lut p q n) := by
  unfold encode_loop20; obl [obl_encode_loop20] [Obl.psub]
termination_by n
theorem obl_encode_simd1 (p q : Ptr) (w s n k) : Obl Eq (encode_simd1 w s p q n k) (encode_simd1 w s p q n k) := by
  unfold encode_simd1; obl [obl_encode_loop20] [obl_encode_head]
theorem obl_encode_auto (p q : Ptr) (w i n k pad) : Obl' (encode_auto w i p n q k pad) (encode_auto w i p n q k pad) := by
  unfold encode_auto encode_simd; obl [obl_encode_fallback] [obl_encode_simd1]
theorem obl_data_length (d : Slice) (b) : Obl' (data_length d b) (data_length d b) := by
  unfold data_length; obl [] []
theorem obl_decoded_length (d : Slice) (b) : Obl' (decoded_length d b) (decoded_length d b) := by
  unfold decoded_length; obl [obl_data_length] []
theorem obl_decode_bits (p : Ptr) (N t) : Obl' (decode_bits N p t) (decode_bits N p t) := by
  unfold decode_bits; obl [] []
theorem obl_write_be_bytes (q : Ptr) (w N x y) : Obl' (write_be_bytes w N q x) (write_be_bytes w N q y) := by
  unfold write_be_bytes; obl [] []
theorem obl_dextra (p q : Ptr) (w e t) : Obl' (decode_extra w p e (some q) t) (decode_extra w p e (some q) t) := by
  unfold decode_extra write_opt; obl [obl_decode_bits, obl_write_be_bytes] []
theorem obl_cextra (p : Ptr) (w e t) : Obl' (decode_extra w p e none t) (decode_extra w p e none t) := by
  unfold decode_extra write_opt; obl [obl_decode_bits] []
theorem obl_decode_loop8 (w t e) (p q : Ptr) :
    Obl Eq (decode_loop8 w t e p q) (decode_loop8 w t e p q) := by
  unfold decode_loop8; obl [obl_decode_bits, obl_write_be_bytes, obl_decode_loop8] []
termination_by e - p.off
decreasing_by simp only [Ptr.add]; omega
theorem obl_decode_fallback (p q : Ptr) (w n k) : Obl' (decode_fallback w p n q k) (decode_fallback w p n q k) := by
  unfold decode_fallback; obl [obl_dextra] [obl_decode_loop8]
theorem obl_decode_loop32 (s c d) (p q : Ptr) (n : Nat) :
    Obl Eq (decode_loop32 s c d p q n) (decode_loop32 s c d p q n) := by
  unfold decode_loop32; obl [obl_decode_loop32] []
termination_by n
theorem obl_decode_auto (p q : Ptr) (w i n k) : Obl' (decode_auto w i p n q k) (decode_auto w i p n q k) := by
  unfold decode_auto decode_simd; obl [obl_decode_fallback] [obl_decode_loop32]
theorem obl_check_loop8 (t e) (p : Ptr) :
    Obl Eq (check_loop8 t e p) (check_loop8 t e p) := by
  unfold check_loop8; obl [obl_decode_bits, obl_check_loop8] []
termination_by e - p.off
decreasing_by simp only [Ptr.add]; omega
theorem obl_check_fallback (p : Ptr) (n k) : Obl' (check_fallback p n k) (check_fallback p n k) := by
  unfold check_fallback; obl [obl_cextra] [obl_check_loop8]
theorem obl_check_loop32 (s c e) (p : Ptr) :
    Obl Eq (check_loop32 s c e p) (check_loop32 s c e p) := by
  unfold check_loop32; obl [obl_check_loop32] []
termination_by e - p.off
decreasing_by simp only [Ptr.add]; omega
theorem obl_check_auto (p : Ptr) (i n k) : Obl' (check_auto i p n k) (check_auto i p n k) := by
  unfold check_auto check_simd; obl [obl_check_fallback] [obl_check_loop32]
theorem obl_encode (src dst : Slice) (P w i config) : Obl' (encode P w i config src dst) (encode P w i config src dst) := by
  unfold encode; obl [obl_encode_auto] []

end Base32
end Simd
